import Verif.StructHash
import Verif.StructEqRel
/-
The hash machine computes a recursive hash in which only renamed nodes are remembered.
-/
namespace Verif.StructEq

section
variable {V W : Type} (M : Mix V W) (H : Heap V)

/-- The state of the recursive hash: the hashes of the renamed nodes met, and the two counters. -/
structure HS (W : Type) where
  memo : List (Nat × W)
  fv : Nat
  gn : Nat

/-- The attributes, from left to right. -/
def hgoItems (c : Bool → Nat → HS W → W × HS W) (f : Bool) : List (Item V) → HS W → List W × HS W
  | [], s => ([], s)
  | .val v :: xs, s =>
    let r := hgoItems c f xs s
    (M.val v :: r.1, r.2)
  | .len n :: xs, s =>
    let r := hgoItems c f xs s
    (M.size n :: r.1, r.2)
  | .ref none _ _ :: xs, s =>
    let r := hgoItems c f xs s
    (M.null :: r.1, r.2)
  | .ref (some p) d _ :: xs, s =>
    let r := c (f || d) p s
    let r' := hgoItems c f xs r.2
    (r.1 :: r'.1, r'.2)

/-- The value added for a variable. -/
def varVal (fv : Nat) (f : Bool) (a : Nat) : List W :=
  if (H.node a).kind = .var then [if f then M.ctr (fv % 4294967296) else M.ptr a] else []

/-- The hash of a node from the hashes of its parts. -/
def finish (a : Nat) (ws : List W) : W := ws.reverse.foldl M.comb (M.ty (H.node a).ty)

/-- The hash of a node of a graph also has its number. -/
def stamp (a gn : Nat) (w : W) : W := if isGraph H a then M.comb w (M.ctr (gn % 4294967296)) else w

/-- The recursive hash. -/
def hgo : Nat → Bool → Nat → HS W → W × HS W
  | 0, _, _, s => (M.null, s)
  | k + 1, f, a, s =>
    match s.memo.lookup a with
    | some w => (w, s)
    | none =>
      let r := hgoItems M (hgo k) f (H.node a).hs ⟨s.memo, nextFv H s.fv f a, s.gn⟩
      let w := stamp M H a r.2.gn (finish M H a (r.1 ++ varVal M H s.fv f a))
      (w, ⟨if (H.node a).kind.marked then (a, w) :: r.2.memo else r.2.memo, r.2.fv,
        if isGraph H a then r.2.gn + 1 else r.2.gn⟩)

/-- The attributes when all the renamed nodes below have been hashed. -/
def phItems (c : Nat → Option W) : List (Item V) → Option (List W)
  | [] => some []
  | .val v :: xs => (phItems c xs).map (M.val v :: ·)
  | .len n :: xs => (phItems c xs).map (M.size n :: ·)
  | .ref none _ _ :: xs => (phItems c xs).map (M.null :: ·)
  | .ref (some p) _ _ :: xs =>
    match c p with
    | none => none
    | some w => (phItems c xs).map (w :: ·)

/-- The hash of an object all of whose renamed nodes have been hashed. -/
def ph (memo : List (Nat × W)) : Nat → Nat → Option W
  | 0, _ => none
  | k + 1, a =>
    if (H.node a).kind.marked then memo.lookup a
    else (phItems M (ph memo k) (H.node a).hs).map (finish M H a)

end

section
variable {V W : Type} {M : Mix V W} {H : Heap V}

/-- Every hash remembered in `m` is remembered in `m'`. -/
def Sub (m m' : List (Nat × W)) : Prop := ∀ x w, m.lookup x = some w → m'.lookup x = some w

theorem Sub.refl (m : List (Nat × W)) : Sub m m := fun _ _ h => h

theorem Sub.trans {m m' m'' : List (Nat × W)} (h : Sub m m') (h' : Sub m' m'') : Sub m m'' :=
  fun x w hx => h' x w (h x w hx)

/-- Only renamed nodes are remembered. -/
def OnlyMarked (H : Heap V) (m : List (Nat × W)) : Prop :=
  ∀ x, (H.node x).kind.marked = false → m.lookup x = none

theorem lookup_cons_self (a : Nat) (w : W) (m : List (Nat × W)) : ((a, w) :: m).lookup a = some w := by
  simp [List.lookup]

theorem lookup_cons_ne {a x : Nat} (h : x ≠ a) (w : W) (m : List (Nat × W)) :
    ((a, w) :: m).lookup x = m.lookup x := by
  rw [List.lookup_cons, beq_eq_false_iff_ne.2 h]

theorem sub_cons {a : Nat} {w : W} {m : List (Nat × W)} (h : m.lookup a = none) : Sub m ((a, w) :: m) := by
  intro x v hx
  rw [lookup_cons_ne, hx]
  rintro rfl
  rw [h] at hx
  cases hx

theorem marked_var {k : Kind} (h : k.marked = false) : k ≠ .var := by rintro rfl; cases h

theorem marked_graph {a : Nat} (h : (H.node a).kind.marked = false) : isGraph H a = false := by
  unfold isGraph
  cases hk : (H.node a).kind <;> rw [hk] at h <;> first | rfl | cases h

theorem nextFv_plain {fv a : Nat} {f : Bool} (h : (H.node a).kind.marked = false) : nextFv H fv f a = fv := by
  unfold nextFv
  rw [if_neg (fun hh => marked_var h hh.1)]

theorem varVal_plain {fv a : Nat} {f : Bool} (h : (H.node a).kind.marked = false) : varVal M H fv f a = [] := by
  unfold varVal
  rw [if_neg (marked_var h)]

/-! ### Hashes that are already determined -/

theorem phItems_mono {c c' : Nat → Option W} {a : Nat} (h : ∀ p w, p < a → c p = some w → c' p = some w) :
    ∀ (xs : List (Item V)) ws, (∀ q d r, Item.ref (some q) d r ∈ xs → q < a) →
      phItems M c xs = some ws → phItems M c' xs = some ws := by
  intro xs
  induction xs with
  | nil => intro ws _ h; exact h
  | cons x xs ih =>
    intro ws hx hp
    have hx' := fun q d r h => hx q d r (List.mem_cons_of_mem _ h)
    have key : ∀ (g : List W → List W), (phItems M c xs).map g = some ws → (phItems M c' xs).map g = some ws := by
      intro g hg
      cases hc : phItems M c xs with
      | none => rw [hc] at hg; cases hg
      | some l => rw [hc] at hg; rw [ih l hx' hc]; exact hg
    rcases x with v | n | ⟨_ | p, d, r⟩ <;> simp only [phItems] at hp ⊢ <;> try exact key _ hp
    cases hc : c p with
    | none => rw [hc] at hp; cases hp
    | some w => rw [hc] at hp; rw [h p w (hx p _ _ List.mem_cons_self) hc]; exact key _ hp

theorem ph_mono {m m' : List (Nat × W)} (hm : Sub m m') : ∀ k k' a w, a < k' → ph M H m k a = some w →
    ph M H m' k' a = some w := by
  intro k
  induction k with
  | zero => intro k' a w _ h; cases h
  | succ k ih =>
    intro k' a w hk h
    cases k' with
    | zero => omega
    | succ k' =>
      rw [ph] at h ⊢
      by_cases hmk : (H.node a).kind.marked = true
      · rw [if_pos hmk] at h ⊢
        exact hm a w h
      · rw [if_neg hmk] at h ⊢
        cases hc : phItems M (ph M H m k) (H.node a).hs with
        | none => rw [hc] at h; cases h
        | some l =>
          rw [hc] at h
          rw [phItems_mono (a := a) (fun p w hp => ih k' p w (by omega)) _ l (fun q d r hq => H.lth a q d r hq) hc]
          exact h

theorem hgoItems_quiet {c : Nat → Option W} {g : Bool → Nat → HS W → W × HS W} {f : Bool} {a : Nat} {s : HS W}
    (h : ∀ f p w, p < a → c p = some w → g f p s = (w, s)) :
    ∀ (xs : List (Item V)) ws, (∀ q d r, Item.ref (some q) d r ∈ xs → q < a) →
      phItems M c xs = some ws → hgoItems M g f xs s = (ws, s) := by
  intro xs
  induction xs with
  | nil => intro ws _ h; cases h; rfl
  | cons x xs ih =>
    intro ws hx hp
    have hx' := fun q d r h => hx q d r (List.mem_cons_of_mem _ h)
    have key : ∀ (g : List W → List W), (phItems M c xs).map g = some ws →
        ∃ l, phItems M c xs = some l ∧ ws = g l := by
      intro g hg
      cases hc : phItems M c xs with
      | none => rw [hc] at hg; cases hg
      | some l => rw [hc] at hg; cases hg; exact ⟨l, rfl, rfl⟩
    rcases x with v | n | ⟨_ | p, d, r⟩ <;> simp only [phItems] at hp <;> simp only [hgoItems]
    · obtain ⟨l, h1, rfl⟩ := key _ hp; rw [ih l hx' h1]
    · obtain ⟨l, h1, rfl⟩ := key _ hp; rw [ih l hx' h1]
    · obtain ⟨l, h1, rfl⟩ := key _ hp; rw [ih l hx' h1]
    · cases hc : c p with
      | none => rw [hc] at hp; cases hp
      | some w =>
        rw [hc] at hp
        obtain ⟨l, h1, rfl⟩ := key _ hp
        rw [h (f || d) p w (hx p _ _ List.mem_cons_self) hc]
        dsimp only
        rw [ih l hx' h1]

/-- Hashing an object whose renamed nodes are known changes nothing. -/
theorem hgo_quiet {s : HS W} (hm : OnlyMarked H s.memo) : ∀ k k' f a w, a < k' → ph M H s.memo k a = some w →
    hgo M H k' f a s = (w, s) := by
  intro k
  induction k with
  | zero => intro k' f a w _ h; cases h
  | succ k ih =>
    intro k' f a w hk h
    cases k' with
    | zero => omega
    | succ k' =>
      rw [ph] at h
      rw [hgo]
      by_cases hmk : (H.node a).kind.marked = true
      · rw [if_pos hmk] at h
        rw [h]
      · rw [if_neg hmk] at h
        have hmk' : (H.node a).kind.marked = false := by simpa using hmk
        rw [hm a hmk']
        cases hc : phItems M (ph M H s.memo k) (H.node a).hs with
        | none => rw [hc] at h; cases h
        | some l =>
          rw [hc] at h
          cases h
          dsimp only
          rw [nextFv_plain hmk', varVal_plain hmk',
            hgoItems_quiet (a := a) (s := ⟨s.memo, s.fv, s.gn⟩)
              (fun f p w hp h => ih k' f p w (by omega) h) _ l (fun q d r hq => H.lth a q d r hq) hc]
          dsimp only
          rw [List.append_nil, stamp, marked_graph hmk', hmk']
          rfl

/-- What is true after hashing. -/
structure After (M : Mix V W) (H : Heap V) (a : Nat) (s s' : HS W) : Prop where
  sub : Sub s.memo s'.memo
  only : OnlyMarked H s'.memo
  new : ∀ x, s.memo.lookup x = none → a ≤ x → s'.memo.lookup x = none

theorem hgoItems_after {k a : Nat} {f : Bool}
    (hc : ∀ f p (s : HS W), p < a → OnlyMarked H s.memo → After M H a s (hgo M H k f p s).2 ∧
      ph M H (hgo M H k f p s).2.memo k p = some (hgo M H k f p s).1) (hk : a ≤ k) :
    ∀ (xs : List (Item V)) (s : HS W), (∀ q d r, Item.ref (some q) d r ∈ xs → q < a) → OnlyMarked H s.memo →
      After M H a s (hgoItems M (hgo M H k) f xs s).2 ∧
      phItems M (ph M H (hgoItems M (hgo M H k) f xs s).2.memo k) xs = some (hgoItems M (hgo M H k) f xs s).1 := by
  intro xs
  induction xs with
  | nil => intro s _ hm; exact ⟨⟨Sub.refl _, hm, fun _ h _ => h⟩, rfl⟩
  | cons x xs ih =>
    intro s hx hm
    have hx' := fun q d r h => hx q d r (List.mem_cons_of_mem _ h)
    rcases x with v | n | ⟨_ | p, d, r⟩ <;> simp only [hgoItems, phItems]
    · obtain ⟨h1, h2⟩ := ih s hx' hm; rw [h2]; exact ⟨h1, rfl⟩
    · obtain ⟨h1, h2⟩ := ih s hx' hm; rw [h2]; exact ⟨h1, rfl⟩
    · obtain ⟨h1, h2⟩ := ih s hx' hm; rw [h2]; exact ⟨h1, rfl⟩
    · have hp := hx p _ _ List.mem_cons_self
      obtain ⟨h1, h2⟩ := hc (f || d) p s hp hm
      obtain ⟨h3, h4⟩ := ih (hgo M H k (f || d) p s).2 hx' h1.only
      rw [ph_mono h3.sub k k p _ (by omega) h2, h4]
      exact ⟨⟨h1.sub.trans h3.sub, h3.only, fun x h h' => h3.new x (h1.new x h h') h'⟩, rfl⟩

theorem hgo_after (k : Nat) : ∀ f a (s : HS W), a < k → OnlyMarked H s.memo →
    After M H (a + 1) s (hgo M H k f a s).2 ∧
      ph M H (hgo M H k f a s).2.memo k a = some (hgo M H k f a s).1 := by
  induction k with
  | zero => intro f a s h; omega
  | succ k ih =>
    intro f a s hk hm
    rw [hgo]
    cases hl : s.memo.lookup a with
    | some w =>
      refine ⟨⟨Sub.refl _, hm, fun _ h _ => h⟩, ?_⟩
      dsimp only
      rw [ph]
      have : (H.node a).kind.marked = true := by
        by_contra h
        rw [hm a (by simpa using h)] at hl
        cases hl
      rw [if_pos this, hl]
    | none =>
      dsimp only
      obtain ⟨h1, h2⟩ := hgoItems_after (M := M) (H := H) (k := k) (a := a) (f := f)
        (fun f p s hp hm => by
          obtain ⟨h1, h2⟩ := ih f p s (by omega) hm
          exact ⟨⟨h1.sub, h1.only, fun x h h' => h1.new x h (by omega)⟩, h2⟩) (by omega)
        (H.node a).hs ⟨s.memo, nextFv H s.fv f a, s.gn⟩ (fun q d r hq => H.lth a q d r hq) hm
      generalize hgoItems M (hgo M H k) f (H.node a).hs ⟨s.memo, nextFv H s.fv f a, s.gn⟩ = r at h1 h2 ⊢
      by_cases hmk : (H.node a).kind.marked = true
      · rw [if_pos hmk, ph, if_pos hmk]
        refine ⟨⟨h1.sub.trans (sub_cons (h1.new a hl (Nat.le_refl a))), ?_, ?_⟩, lookup_cons_self _ _ _⟩
        · intro x hx
          dsimp only
          rw [lookup_cons_ne]
          · exact h1.only x hx
          · rintro rfl; rw [hmk] at hx; cases hx
        · intro x hx hax
          dsimp only
          rw [lookup_cons_ne (by omega)]
          exact h1.new x hx (by omega)
      · have hmk' : (H.node a).kind.marked = false := by simpa using hmk
        rw [if_neg hmk, ph, if_neg hmk]
        refine ⟨⟨h1.sub, h1.only, fun x h h' => h1.new x h (by omega)⟩, ?_⟩
        rw [h2, varVal_plain hmk', List.append_nil, stamp, marked_graph hmk']
        rfl

/-! ### The machine -/

/-- The memory of the machine, which also has the nodes that are not renamed. -/
structure Rel (M : Mix V W) (H : Heap V) (mm : List (Nat × W)) (s : HS W) : Prop where
  only : OnlyMarked H s.memo
  marked : ∀ x, (H.node x).kind.marked = true → mm.lookup x = s.memo.lookup x
  plain : ∀ x w, mm.lookup x = some w → (H.node x).kind.marked = false → ph M H s.memo (x + 1) x = some w

theorem Rel.ph {mm : List (Nat × W)} {s : HS W} (h : Rel M H mm s) {x : Nat} {w : W} (hx : mm.lookup x = some w) :
    ph M H s.memo (x + 1) x = some w := by
  by_cases hm : (H.node x).kind.marked = true
  · rw [StructEq.ph, if_pos hm, ← h.marked x hm, hx]
  · exact h.plain x w hx (by simpa using hm)

theorem Rel.hit {mm : List (Nat × W)} {s : HS W} (h : Rel M H mm s) {x k : Nat} {w : W} {f : Bool}
    (hx : mm.lookup x = some w) (hk : x < k) : hgo M H k f x s = (w, s) :=
  hgo_quiet h.only (x + 1) k f x w hk (h.ph hx)

theorem Rel.miss {mm : List (Nat × W)} {s : HS W} (h : Rel M H mm s) {x : Nat} (hx : mm.lookup x = none) :
    s.memo.lookup x = none := by
  by_cases hm : (H.node x).kind.marked = true
  · rw [← h.marked x hm, hx]
  · exact h.only x (by simpa using hm)

/-- Some turns of the loop. -/
inductive HReach (M : Mix V W) (H : Heap V) : HSt W → HSt W → Prop where
  | refl (s) : HReach M H s s
  | step {s t u} : hstep M H s = .next t → HReach M H t u → HReach M H s u

theorem HReach.trans {s t u : HSt W} (h : HReach M H s t) (h' : HReach M H t u) : HReach M H s u := by
  induction h with
  | refl => exact h'
  | step h1 _ ih => exact .step h1 (ih h')

/-- Running the tasks `ts` pushes `ws` and takes the recursive state from `s` to `s'`. -/
def HDoes (M : Mix V W) (H : Heap V) (ts : List (HTask W)) (bound : Nat) (s : HS W) (ws : List W) (s' : HS W) :
    Prop :=
  ∀ rest res mm, Rel M H mm s → ∃ mm', Rel M H mm' s' ∧ Sub mm mm' ∧
    (∀ x, mm.lookup x = none → bound ≤ x → mm'.lookup x = none) ∧
    HReach M H ⟨ts ++ rest, res, mm, s.fv, s.gn⟩ ⟨rest, ws.reverse ++ res, mm', s'.fv, s'.gn⟩

theorem HDoes.nil {b : Nat} {s : HS W} : HDoes M H [] b s [] s :=
  fun _ _ mm h => ⟨mm, h, Sub.refl _, fun _ h _ => h, .refl _⟩

theorem HDoes.append {b : Nat} {s t u : HS W} {ts ts' : List (HTask W)} {ws ws' : List W}
    (h : HDoes M H ts b s ws t) (h' : HDoes M H ts' b t ws' u) : HDoes M H (ts ++ ts') b s (ws ++ ws') u := by
  intro rest res mm hr
  obtain ⟨m1, r1, s1, n1, c1⟩ := h (ts' ++ rest) res mm hr
  obtain ⟨m2, r2, s2, n2, c2⟩ := h' rest (ws.reverse ++ res) m1 r1
  refine ⟨m2, r2, s1.trans s2, fun x hx hb => n2 x (n1 x hx hb) hb, ?_⟩
  rw [List.append_assoc, List.reverse_append, List.append_assoc]
  exact c1.trans c2

theorem HDoes.value {b : Nat} {s : HS W} (w : W) : HDoes M H [.value w] b s [w] s :=
  fun rest res mm h => ⟨mm, h, Sub.refl _, fun _ h _ => h, .step rfl (.refl _)⟩

theorem hitems_does {k a : Nat} {f : Bool} {mm0 : List (Nat × W)} {s0 : HS W} (h0 : Rel M H mm0 s0) (hk : a ≤ k)
    (hc : ∀ f p (s : HS W), p < a → OnlyMarked H s.memo → HDoes M H [.todo p f] a s [(hgo M H k f p s).1] (hgo M H k f p s).2) :
    ∀ (xs : List (Item V)) (s : HS W), (∀ q d r, Item.ref (some q) d r ∈ xs → q < a) → OnlyMarked H s.memo →
      Sub s0.memo s.memo →
      HDoes M H (xs.map (hitem M mm0 f)) a s (hgoItems M (hgo M H k) f xs s).1 (hgoItems M (hgo M H k) f xs s).2 := by
  intro xs
  induction xs with
  | nil => intro s _ _ _; exact HDoes.nil
  | cons x xs ih =>
    intro s hx hm hs
    have hx' := fun q d r h => hx q d r (List.mem_cons_of_mem _ h)
    rcases x with v | n | ⟨_ | p, d, r⟩ <;> simp only [List.map_cons, hitem, hreduce, hgoItems]
    · exact (HDoes.value _).append (ih s hx' hm hs)
    · exact (HDoes.value _).append (ih s hx' hm hs)
    · exact (HDoes.value _).append (ih s hx' hm hs)
    · have hp := hx p _ _ List.mem_cons_self
      cases hl : mm0.lookup p with
      | some w =>
        have hq : hgo M H k (f || d) p s = (w, s) :=
          hgo_quiet hm (p + 1) k _ p w (by omega) (ph_mono hs _ _ _ _ (by omega) (h0.ph hl))
        rw [hq]
        exact (HDoes.value _).append (ih s hx' hm hs)
      | none =>
        have ha := (hgo_after (M := M) (H := H) k (f || d) p s (by omega) hm).1
        exact (hc (f || d) p s hp hm).append (ih _ hx' ha.only (hs.trans ha.sub))

theorem varTask_map (fv a : Nat) (f : Bool) : varTask M H fv f a = (varVal M H fv f a).map HTask.value := by
  unfold varTask varVal
  split <;> rfl

theorem HDoes.values {b : Nat} {s : HS W} (ws : List W) : HDoes M H (ws.map HTask.value) b s ws s := by
  induction ws with
  | nil => exact HDoes.nil
  | cons w ws ih => exact (HDoes.value w).append ih

theorem todo_hash (k : Nat) : ∀ f a (s : HS W), a < k → OnlyMarked H s.memo →
    HDoes M H [.todo a f] (a + 1) s [(hgo M H k f a s).1] (hgo M H k f a s).2 := by
  induction k with
  | zero => intro f a s h; omega
  | succ k ih =>
    intro f a s hk hm rest res mm hr
    cases hl : mm.lookup a with
    | some w =>
      rw [hr.hit hl hk]
      refine ⟨mm, hr, Sub.refl _, fun _ h _ => h, .step ?_ (.refl _)⟩
      simp only [hstep, List.cons_append, List.nil_append, hl]
      rfl
    | none =>
      have hmiss := hr.miss hl
      have hitems := hitems_does (M := M) (H := H) (k := k) (a := a) (f := f) (mm0 := mm)
        (s0 := s) hr (by omega)
        (fun f p s hp hm rest res mm hr => by
          obtain ⟨m1, r1, s1, n1, c1⟩ := ih f p s (by omega) hm rest res mm hr
          exact ⟨m1, r1, s1, fun x h h' => n1 x h (by omega), c1⟩)
        (H.node a).hs ⟨s.memo, nextFv H s.fv f a, s.gn⟩ (fun q d r hq => H.lth a q d r hq) hm (Sub.refl _)
      have hafter := (hgo_after (M := M) (H := H) (k + 1) f a s hk hm)
      rw [hgo, hmiss] at hafter ⊢
      dsimp only at hafter ⊢
      generalize hgoItems M (hgo M H k) f (H.node a).hs ⟨s.memo, nextFv H s.fv f a, s.gn⟩ = r at hitems hafter ⊢
      have hall := hitems.append (HDoes.values (M := M) (H := H) (b := a) (s := r.2) (varVal M H s.fv f a))
      have hr' : Rel M H mm ⟨s.memo, nextFv H s.fv f a, s.gn⟩ := ⟨hr.only, hr.marked, hr.plain⟩
      obtain ⟨m1, r1, s1, n1, c1⟩ := hall (.done a res.length :: rest) res mm hr'
      rw [← varTask_map] at c1
      generalize hws : r.1 ++ varVal M H s.fv f a = ws at c1 hafter ⊢
      have hn := n1 a hl (Nat.le_refl a)
      generalize hw : stamp M H a r.2.gn (finish M H a ws) = w at hafter ⊢
      refine ⟨(a, w) :: m1, ?_, s1.trans (sub_cons hn), ?_, ?_⟩
      · refine ⟨hafter.1.only, ?_, ?_⟩
        · intro x hx
          by_cases hxa : x = a
          · subst hxa
            simp only [hx, if_true, lookup_cons_self]
          · rw [lookup_cons_ne hxa, r1.marked x hx]
            dsimp only
            split
            · rw [lookup_cons_ne hxa]
            · rfl
        · intro x v hv hx
          by_cases hxa : x = a
          · subst hxa
            rw [lookup_cons_self] at hv
            cases hv
            exact ph_mono (Sub.refl _) _ _ _ _ (by omega) hafter.2
          · rw [lookup_cons_ne hxa] at hv
            have := r1.plain x v hv hx
            refine ph_mono ?_ _ _ _ _ (by omega) this
            dsimp only
            split
            · refine sub_cons ?_
              exact r1.miss hn
            · exact Sub.refl _
      · intro x hx hb
        rw [lookup_cons_ne (by omega)]
        exact n1 x hx (by omega)
      · refine .step (t := ⟨(H.node a).hs.map (hitem M mm f) ++ varTask M H s.fv f a ++ .done a res.length :: rest, res,
          mm, nextFv H s.fv f a, s.gn⟩) ?_ (c1.trans (.step ?_ (.refl _)))
        · simp only [hstep, List.cons_append, List.nil_append, hl]
        · simp only [hstep, List.length_append, List.length_reverse]
          rw [if_neg (show ¬ (ws.length + res.length < res.length) by omega), hn]
          have hlen : ws.length + res.length - res.length = ws.reverse.length := by
            rw [List.length_reverse]; omega
          simp only [hlen, List.take_left', List.drop_left']
          subst hw
          rfl

/-- The hash that `structural_hash` returns. -/
def hashOf (M : Mix V W) (H : Heap V) (f : Bool) : Option Nat → W
  | none => M.null
  | some a => (hgo M H (a + 1) f a ⟨[], 0, 0⟩).1

theorem hrun_reach {s t : HSt W} (h : HReach M H s t) {n : Nat} {r : Option W} (ht : hrun M H n t = some r) :
    ∃ n, hrun M H n s = some r := by
  induction h with
  | refl => exact ⟨n, ht⟩
  | step h1 _ ih =>
    obtain ⟨m, hm⟩ := ih ht
    exact ⟨m + 1, by rw [hrun, h1]; exact hm⟩

theorem hrun_mono {n : Nat} : ∀ {m : Nat} {s : HSt W} {r : Option W}, hrun M H n s = some r → n ≤ m →
    hrun M H m s = some r := by
  induction n with
  | zero => intro m s r h; cases h
  | succ n ih =>
    intro m s r h hm
    cases m with
    | zero => omega
    | succ m =>
      rw [hrun] at h ⊢
      cases hs : hstep M H s with
      | next s' => rw [hs] at h; exact ih h (by omega)
      | stop => rw [hs] at h; exact h
      | crash => rw [hs] at h; exact h

/-- The hash always exists, no check fails, and it is `hashOf`. -/
theorem hashReturns_iff {a : Option Nat} {f : Bool} {w : W} : HashReturns M H a f w ↔ hashOf M H f a = w := by
  have key : HashReturns M H a f (hashOf M H f a) := by
    unfold HashReturns
    cases a with
    | none => exact ⟨2, rfl⟩
    | some a =>
      have h := todo_hash (M := M) (H := H) (a + 1) f a ⟨[], 0, 0⟩ (Nat.lt_succ_self a) (fun _ _ => rfl)
      obtain ⟨m1, _, _, _, c⟩ := h [] [] [] ⟨fun _ _ => rfl, fun _ _ => rfl, fun x w h => by cases h⟩
      exact hrun_reach c (n := 1) rfl
  constructor
  · rintro ⟨n, hn⟩
    obtain ⟨m, hm⟩ := key
    have h1 := hrun_mono hn (Nat.le_max_left n m)
    rw [hrun_mono hm (Nat.le_max_right n m)] at h1
    cases h1
    rfl
  · rintro rfl
    exact key

end

end Verif.StructEq
