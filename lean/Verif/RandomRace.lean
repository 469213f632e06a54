/-
Threads that share the default generator: `_randommodule.cc` 141-172 (each word is drawn under the
lock of the object), 192-197 (`random()` draws two words, each with its own lock), 200-215 and
846-854 (seeding stores into the object under a different mutex, so not under that lock).

Simplifications: memory is sequentially consistent (the accesses that race are undefined in C++);
of seeding only the store to `index` is a step, because that one store is enough for the
counterexample; a draw is acquire, test with refill, and read with release, which no other drawing
thread can divide.
-/
import Verif.RandomSeq

namespace Verif.Random.Race

inductive Pc where
  | idle | locked | ready
deriving DecidableEq

structure St where
  gen : Gen
  holder : Option Nat
  pc : Nat → Pc
  /-- the words drawn so far, with the thread that drew them -/
  log : List (Nat × W)
  /-- a read outside the array happened -/
  oob : Bool

inductive Act where
  /-- thread takes the lock (148) -/
  | acquire (i : Nat)
  /-- thread tests the index and refills (149-164) -/
  | check (i : Nat)
  /-- thread reads its word, advances and releases (166-172) -/
  | take (i : Nat)
  /-- the store `self->index = mti` of `init_genrand` (213), without the lock of the object -/
  | reseed
deriving DecidableEq

def setPc (f : Nat → Pc) (i : Nat) (v : Pc) : Nat → Pc := fun j => if j = i then v else f j

/-- `none`: the thread cannot do that now. -/
def step (s : St) : Act → Option St
  | .acquire i =>
    if s.pc i = .idle ∧ s.holder = none then
      some { s with holder := some i, pc := setPc s.pc i .locked }
    else none
  | .check i =>
    if s.pc i = .locked then
      if N ≤ s.gen.index then
        match twist s.gen.mt with
        | some mt => some { s with gen := ⟨0, mt⟩, pc := setPc s.pc i .ready }
        | none => some { s with oob := true, pc := setPc s.pc i .ready }
      else some { s with pc := setPc s.pc i .ready }
    else none
  | .take i =>
    if s.pc i = .ready then
      match s.gen.mt[s.gen.index]? with
      | some w => some { s with
          gen := { s.gen with index := s.gen.index + 1 }, holder := none,
          pc := setPc s.pc i .idle, log := s.log ++ [(i, temper w)] }
      | none => some { s with
          gen := { s.gen with index := s.gen.index + 1 }, holder := none,
          pc := setPc s.pc i .idle, oob := true }
    else none
  | .reseed => some { s with gen := { s.gen with index := N } }

def run : St → List Act → Option St
  | s, [] => some s
  | s, a :: as => (step s a).bind (fun s => run s as)

def init (g : Gen) : St := ⟨g, none, fun _ => .idle, [], false⟩

/-! ## Drawing threads only -/

structure Inv (x : Nat → W) (p : Nat) (s : St) : Prop where
  safe : s.oob = false
  at_ : At x (p + s.log.length) s.gen
  words : s.log.map Prod.snd = (List.range s.log.length).map (fun k => temper (x (p + k)))
  alone : ∀ i, s.pc i ≠ .idle → s.holder = some i
  checked : ∀ i, s.pc i = .ready → s.gen.index < N

theorem inv_step {x : Nat → W} (hx : Rec x) {p : Nat} {s s' : St} {a : Act} (h : Inv x p s)
    (ha : a ≠ .reseed) (hs : step s a = some s') : Inv x p s' := by
  cases a with
  | reseed => exact absurd rfl ha
  | acquire i =>
    simp only [step] at hs
    split at hs
    · next hc =>
      obtain rfl := Option.some.inj hs
      have other : ∀ j, s.pc j = .idle := fun j => by
        apply Classical.byContradiction
        intro hj
        have := h.alone j hj
        rw [hc.2] at this; cases this
      refine ⟨h.safe, h.at_, h.words, fun j hj => ?_, fun j hj => ?_⟩
      · by_cases hji : j = i
        · subst hji; rfl
        · simp only [setPc, if_neg hji] at hj; exact absurd (other j) hj
      · by_cases hji : j = i
        · subst hji; simp only [setPc, if_true] at hj; cases hj
        · simp only [setPc, if_neg hji] at hj; rw [other j] at hj; cases hj
    · cases hs
  | check i =>
    simp only [step] at hs
    split at hs
    · next hc =>
      have alone' : ∀ j, setPc s.pc i .ready j ≠ .idle → s.holder = some j := by
        intro j hj
        by_cases hji : j = i
        · subst hji; exact h.alone _ (by rw [hc]; decide)
        · simp only [setPc, if_neg hji] at hj; exact h.alone j hj
      split at hs
      · next hi =>
        obtain ⟨off, h1, h2, h3⟩ := h.at_
        obtain ⟨mt', t1, t2⟩ := twist_agree hx h3
        rw [t1] at hs
        obtain rfl := Option.some.inj hs
        refine ⟨h.safe, ⟨off + N, ?_, Nat.zero_le _, t2⟩, h.words, alone', fun j _ => by show 0 < N; decide⟩
        show p + s.log.length = off + N + 0
        omega
      · next hi =>
        obtain rfl := Option.some.inj hs
        exact ⟨h.safe, h.at_, h.words, alone', fun j _ => by show s.gen.index < N; omega⟩
    · cases hs
  | take i =>
    simp only [step] at hs
    split at hs
    · next hc =>
      have hidx := h.checked i hc
      obtain ⟨off, h1, h2, h3⟩ := h.at_
      have hw : s.gen.mt[s.gen.index]? = some (x (p + s.log.length)) := by
        rw [h3.2 _ hidx, if_neg (by omega), h1]
      rw [hw] at hs
      obtain rfl := Option.some.inj hs
      have hold := h.alone i (by rw [hc]; decide)
      have other : ∀ j, j ≠ i → s.pc j = .idle := fun j hj => by
        apply Classical.byContradiction
        intro hn
        have := h.alone j hn
        rw [hold] at this
        exact hj (Option.some.inj this).symm
      have idle : ∀ j, setPc s.pc i .idle j = .idle := fun j => by
        by_cases hji : j = i
        · subst hji; simp [setPc]
        · simp only [setPc, if_neg hji]; exact other j hji
      refine ⟨h.safe, ⟨off, ?_, ?_, h3⟩, ?_, fun j hj => absurd (idle j) hj,
        fun j hj => by cases (idle j).symm.trans hj⟩
      · simp only [List.length_append, List.length_cons, List.length_nil]; omega
      · exact hidx
      · simp only [List.map_append, List.length_append, List.length_cons, List.length_nil,
          List.map_cons, List.map_nil, Nat.zero_add, List.range_succ, h.words]
    · cases hs

theorem inv_run {x : Nat → W} (hx : Rec x) {p : Nat} : ∀ (as : List Act) {s s' : St}, Inv x p s →
    .reseed ∉ as → run s as = some s' → Inv x p s'
  | [], s, s', h, _, hr => by obtain rfl := Option.some.inj hr; exact h
  | a :: as, s, s', h, hn, hr => by
    unfold run at hr
    cases hs : step s a with
    | none => rw [hs] at hr; cases hr
    | some s1 =>
      rw [hs] at hr
      exact inv_run hx as (inv_step hx h (fun e => hn (by rw [e]; exact List.mem_cons_self)) hs)
        (fun hm => hn (List.mem_cons_of_mem _ hm)) hr

/-- **Threads that only draw share one sequence**: in every interleaving of any number of threads no
read leaves the array, and the words drawn, in the order of the draws, are the words that a single
thread would have drawn: none twice, none left out. -/
theorem draws_serial {g : Gen} (hg : Good g) {as : List Act} {s : St} (hn : .reseed ∉ as)
    (hr : run (init g) as = some s) :
    s.oob = false ∧ (words s.log.length g).map Prod.fst = some (s.log.map Prod.snd) := by
  have hx := extend_rec g.mt
  have h0 : Inv (extend g.mt) g.index (init g) :=
    ⟨rfl, good_at hg, rfl, fun i hi => absurd rfl hi, fun i hi => by cases hi⟩
  have h := inv_run hx as h0 hn hr
  obtain ⟨g', h1, -⟩ := words_at hx s.log.length g.index g (good_at hg)
  exact ⟨h.safe, by rw [h1, h.words]; rfl⟩

/-! ## Seeding at the same time -/

/-- Seeding while a thread draws makes that thread read outside the array, from every state with a
word left: the store of the index falls between the test and the read. -/
theorem seed_race_refuted {g : Gen} (hg : Good g) (hi : g.index < N) :
    ∃ s, run (init g) [.acquire 0, .check 0, .reseed, .take 0] = some s ∧ s.oob = true ∧
      s.gen.index = N + 1 := by
  have hn : ¬ N ≤ g.index := by omega
  have hb : g.mt[N]? = none := List.getElem?_eq_none (by rw [hg.size]; exact Nat.le_refl _)
  simp [run, step, init, setPc, hn, hb]

/-! ## Two words for one float -/

/-- The numerator that `random()` makes of its two words. -/
def numerator (a b : W) : Nat := (a >>> 5).toNat * 67108864 + (b >>> 6).toNat

def draw (i : Nat) : List Act := [.acquire i, .check i, .take i]

theorem numerator_inj {a b c d : W} (h : numerator a b = numerator c d) :
    a >>> 5 = c >>> 5 ∧ b >>> 6 = d >>> 6 := by
  unfold numerator at h
  have h1 := b.isLt
  have h2 := d.isLt
  have hb : (b >>> 6).toNat < 67108864 := by
    rw [BitVec.toNat_ushiftRight, Nat.shiftRight_eq_div_pow]; omega
  have hd : (d >>> 6).toNat < 67108864 := by
    rw [BitVec.toNat_ushiftRight, Nat.shiftRight_eq_div_pow]; omega
  exact ⟨BitVec.eq_of_toNat_eq (by omega), BitVec.eq_of_toNat_eq (by omega)⟩

/-- `random()` is not atomic: when thread 1 draws its two words between the two words of thread 0,
thread 0 returns a number that neither order of the two calls returns to anyone (for words that
differ in the bits used). -/
theorem random_torn_refuted {g : Gen} (hg : Good g) (hi : g.index + 4 ≤ N) :
    ∃ s w0 w1 w2 w3, run (init g) (draw 0 ++ draw 1 ++ draw 1 ++ draw 0) = some s ∧
      (words 4 g).map Prod.fst = some [w0, w1, w2, w3] ∧
      s.log = [(0, w0), (1, w1), (1, w2), (0, w3)] ∧
      (w0 >>> 5 ≠ w2 >>> 5 → w1 >>> 6 ≠ w3 >>> 6 →
        numerator w0 w3 ≠ numerator w0 w1 ∧ numerator w0 w3 ≠ numerator w2 w3) := by
  have hN : N = 624 := rfl
  have hl := hg.size
  have e : ∀ k, k < 4 → g.mt[g.index + k]? = some (extend g.mt (g.index + k)) := fun k hk =>
    extend_of_lt hl (by omega)
  have e0 := e 0 (by omega)
  rw [Nat.add_zero] at e0
  have e1 := e 1 (by omega)
  have e2 := e 2 (by omega)
  have e3 := e 3 (by omega)
  have n0 : ¬ N ≤ g.index := by omega
  have n1 : ¬ N ≤ g.index + 1 := by omega
  have n2 : ¬ N ≤ g.index + 2 := by omega
  have n3 : ¬ N ≤ g.index + 3 := by omega
  obtain ⟨g', hw, -⟩ := words_at (extend_rec g.mt) 4 g.index g (good_at hg)
  have hrun : ∃ s, run (init g) (draw 0 ++ draw 1 ++ draw 1 ++ draw 0) = some s ∧
      s.log = [(0, temper (extend g.mt g.index)), (1, temper (extend g.mt (g.index + 1))),
        (1, temper (extend g.mt (g.index + 2))), (0, temper (extend g.mt (g.index + 3)))] := by
    simp [run, step, init, setPc, draw, n0, n1, n2, n3, e0, e1, e2, e3]
  obtain ⟨s, h1, h2⟩ := hrun
  refine ⟨s, _, _, _, _, h1, by rw [hw]; rfl, h2, fun ha hb => ⟨fun h => ?_, fun h => ?_⟩⟩
  · exact hb (numerator_inj h).2.symm
  · exact ha (numerator_inj h).1

/-- Such words exist: the state 0, 1, 2, …. -/
example : let w := fun k => temper (BitVec.ofNat 32 (k * 1000))
    (w 0 >>> 5 ≠ w 2 >>> 5) ∧ (w 1 >>> 6 ≠ w 3 >>> 6) := by decide

/-- A run of two threads in which thread 1 has to wait for the lock. -/
example : ((run (init ⟨620, List.replicate N 1#32⟩)
      [.acquire 0, .check 0, .take 0, .acquire 1, .check 1, .take 1]).map
        (fun s => (s.log.map Prod.fst, s.gen.index, s.oob))) = some ([0, 1], 622, false) ∧
    (run (init ⟨620, List.replicate N 1#32⟩) [.acquire 0, .acquire 1]).isNone := by
  have h0 : (List.replicate N (1#32 : W))[620]? = some 1#32 := by
    rw [List.getElem?_replicate]; rfl
  have h1 : (List.replicate N (1#32 : W))[621]? = some 1#32 := by
    rw [List.getElem?_replicate]; rfl
  have n0 : ¬ N ≤ 620 := by decide
  have n1 : ¬ N ≤ 621 := by decide
  constructor
  · simp [run, step, init, setPc, n0, n1, h0, h1]
  · simp [run, step, init, setPc]

end Verif.Random.Race
