import Verif.SoCache
/-
Proofs about `Verif.SoCache`.
-/

namespace Verif.SoCache

section
variable {χ : Type} {cache : Bool} {path : Nat → Str} {gen : Nat → χ} {kill : PC χ → Prop}

theorem upd_same {α β : Type} [DecidableEq α] (f : α → β) (a : α) (b : β) : upd f a b a = b := if_pos rfl

theorem upd_ne {α β : Type} [DecidableEq α] (f : α → β) {a x : α} (b : β) (h : x ≠ a) : upd f a b x = f x := if_neg h

/-! ### Mutual exclusion -/

/-- The lock is held by the process that is inside, and a compiler at work means a partial library. -/
structure Base (path : Nat → Str) (s : St χ) : Prop where
  holder : ∀ x p, s.lock x = some p → path p = x ∧ (s.pc p).inside = true
  inside : ∀ p, (s.pc p).inside = true → s.lock (path p) = some p
  part : ∀ p, s.pc p = .compiling → s.so (path p) = .part

theorem Base.init : Base path (init : St χ) :=
  ⟨by simp [SoCache.init], by simp [SoCache.init, PC.inside], by simp [SoCache.init]⟩

theorem Base.unique {s : St χ} (h : Base path s) {p q : Nat} (hp : (s.pc p).inside = true)
    (hq : (s.pc q).inside = true) (hpq : path p = path q) : p = q := by
  have h1 := h.inside p hp
  have h2 := h.inside q hq
  rw [hpq, h2] at h1
  exact (Option.some.inj h1).symm

/-- A step inside the critical section that does not touch locks. -/
theorem Base.move {s : St χ} (h : Base path s) {p : Nat} (hp : (s.pc p).inside = true) {c : PC χ}
    (hc : c.inside = true) {f : File χ} (hf : c = .compiling → f = .part) {b : Str → Nat} :
    Base path { s with so := upd s.so (path p) f, pc := upd s.pc p c, builds := b } := by
  refine ⟨fun x q hq => ?_, fun q hq => ?_, fun q hq => ?_⟩
  · obtain ⟨h1, h2⟩ := h.holder x q hq
    refine ⟨h1, ?_⟩
    by_cases hqp : q = p
    · subst hqp; simp only [upd_same, hc]
    · simp only [upd_ne _ _ hqp, h2]
  · by_cases hqp : q = p
    · subst hqp; exact h.inside q hp
    · simp only [upd_ne _ _ hqp] at hq
      exact h.inside q hq
  · by_cases hqp : q = p
    · subst hqp
      simp only [upd_same] at hq ⊢
      exact hf hq
    · simp only [upd_ne _ _ hqp] at hq
      have hne : path q ≠ path p := fun he => hqp (h.unique (by rw [hq]; rfl) hp he)
      simp only [upd_ne _ _ hne]
      exact h.part q hq

/-- Leaving the critical section. -/
theorem Base.leave {s : St χ} (h : Base path s) {p : Nat} (hp : (s.pc p).inside = true) {c : PC χ}
    (hc : c.inside = false) {so' : Str → File χ}
    (hso : ∀ x, x ≠ path p → so' x = s.so x) :
    Base path { s with so := so', lock := upd s.lock (path p) none, pc := upd s.pc p c } := by
  refine ⟨fun x q hq => ?_, fun q hq => ?_, fun q hq => ?_⟩
  · by_cases hx : x = path p
    · subst hx; simp only [upd_same] at hq; exact absurd hq (by simp)
    · simp only [upd_ne _ _ hx] at hq
      obtain ⟨h1, h2⟩ := h.holder x q hq
      have hqp : q ≠ p := fun he => hx (by rw [← h1, he])
      exact ⟨h1, by simp only [upd_ne _ _ hqp, h2]⟩
  · by_cases hqp : q = p
    · subst hqp; simp only [upd_same, hc] at hq; exact absurd hq (by simp)
    · simp only [upd_ne _ _ hqp] at hq
      have hne : path q ≠ path p := fun he => hqp (h.unique hq hp he)
      simp only [upd_ne _ _ hne]
      exact h.inside q hq
  · by_cases hqp : q = p
    · subst hqp; simp only [upd_same] at hq; rw [hq] at hc; exact absurd hc (by simp [PC.inside])
    · simp only [upd_ne _ _ hqp] at hq
      have hne : path q ≠ path p := fun he => hqp (h.unique (by rw [hq]; rfl) hp he)
      dsimp only
      rw [hso _ hne]
      exact h.part q hq

theorem upd_self {α β : Type} [DecidableEq α] (f : α → β) (a : α) : upd f a (f a) = f := by
  funext x
  by_cases h : x = a
  · rw [h, upd_same]
  · rw [upd_ne _ _ h]

theorem Base.step {s t : St χ} (h : Base path s) (hs : Step cache path gen s t) : Base path t := by
  cases hs with
  | lock p hp hl =>
    refine ⟨fun x q hq => ?_, fun q hq => ?_, fun q hq => ?_⟩
    · by_cases hx : x = path p
      · subst hx
        simp only [upd_same, Option.some.injEq] at hq
        subst hq
        exact ⟨rfl, by simp only [upd_same]; rfl⟩
      · simp only [upd_ne _ _ hx] at hq
        obtain ⟨h1, h2⟩ := h.holder x q hq
        have hqp : q ≠ p := fun he => hx (by rw [← h1, he])
        exact ⟨h1, by simp only [upd_ne _ _ hqp, h2]⟩
    · by_cases hqp : q = p
      · subst hqp; simp only [upd_same]
      · simp only [upd_ne _ _ hqp] at hq
        have := h.inside q hq
        have hne : path q ≠ path p := fun he => by rw [he, hl] at this; exact absurd this (by simp)
        simp only [upd_ne _ _ hne]
        exact this
    · by_cases hqp : q = p
      · subst hqp; simp only [upd_same] at hq; exact absurd hq (by simp)
      · simp only [upd_ne _ _ hqp] at hq
        exact h.part q hq
  | hit p hp hc hn =>
    have := h.move (p := p) (by rw [hp]; rfl) (c := .built) rfl (f := s.so (path p)) (by simp) (b := s.builds)
    rwa [upd_self] at this
  | create p hp hn => exact h.move (by rw [hp]; rfl) rfl fun _ => rfl
  | done p hp => exact h.move (b := s.builds) (by rw [hp]; rfl) rfl (by simp)
  | fail p hp => exact h.leave (by rw [hp]; rfl) rfl fun x hx => upd_ne _ _ hx
  | unlock p hp => exact h.leave (so' := s.so) (by rw [hp]; rfl) rfl fun _ _ => rfl
  | load p hp =>
    refine ⟨fun x q hq => ?_, fun q hq => ?_, fun q hq => ?_⟩
    · obtain ⟨h1, h2⟩ := h.holder x q hq
      have hqp : q ≠ p := fun he => by rw [he, hp] at h2; exact absurd h2 (by simp [PC.inside])
      exact ⟨h1, by simp only [upd_ne _ _ hqp, h2]⟩
    · by_cases hqp : q = p
      · subst hqp; simp only [upd_same] at hq; exact absurd hq (by simp [PC.inside])
      · simp only [upd_ne _ _ hqp] at hq
        exact h.inside q hq
    · by_cases hqp : q = p
      · subst hqp; simp only [upd_same] at hq; exact absurd hq (by simp)
      · simp only [upd_ne _ _ hqp] at hq
        exact h.part q hq

theorem Base.crash {s : St χ} (h : Base path s) (p : Nat) : Base path (crash s p) := by
  refine ⟨fun x q hq => ?_, fun q hq => ?_, fun q hq => ?_⟩
  · simp only [SoCache.crash] at hq
    split at hq
    · exact absurd hq (by simp)
    · rename_i hn
      obtain ⟨h1, h2⟩ := h.holder x q hq
      have hqp : q ≠ p := fun he => hn (by rw [hq, he])
      exact ⟨h1, by simp only [SoCache.crash, upd_ne _ _ hqp, h2]⟩
  · by_cases hqp : q = p
    · subst hqp; simp only [SoCache.crash, upd_same] at hq; exact absurd hq (by simp [PC.inside])
    · simp only [SoCache.crash, upd_ne _ _ hqp] at hq ⊢
      have := h.inside q hq
      rw [this, if_neg (by simpa using hqp)]
  · by_cases hqp : q = p
    · subst hqp; simp only [SoCache.crash, upd_same] at hq; exact absurd hq (by simp)
    · simp only [SoCache.crash, upd_ne _ _ hqp] at hq ⊢
      exact h.part q hq

theorem Base.run {s t : St χ} (h : Base path s) (hr : Run cache path gen kill s t) : Base path t := by
  induction hr with
  | refl => exact h
  | step _ hs ih => exact ih.step hs
  | crash p _ _ ih => exact ih.crash p

/-! ### Complete libraries stay -/

theorem full_step {s t : St χ} (h : Base path s) (hs : Step true path gen s t) {x : Str} {c : χ}
    (hx : s.so x = .full c) : t.so x = .full c ∧ t.builds x = s.builds x := by
  cases hs with
  | lock => exact ⟨hx, rfl⟩
  | hit => exact ⟨hx, rfl⟩
  | create p hp hn =>
    have hne : x ≠ path p := fun he => by rw [he, hn rfl] at hx; exact absurd hx (by simp)
    exact ⟨by simp only [upd_ne _ _ hne, hx], by simp only [upd_ne _ _ hne]⟩
  | done p hp =>
    have hne : x ≠ path p := fun he => by rw [he, h.part p hp] at hx; exact absurd hx (by simp)
    exact ⟨by simp only [upd_ne _ _ hne, hx], rfl⟩
  | fail p hp =>
    have hne : x ≠ path p := fun he => by rw [he, h.part p hp] at hx; exact absurd hx (by simp)
    exact ⟨by simp only [upd_ne _ _ hne, hx], rfl⟩
  | unlock => exact ⟨hx, rfl⟩
  | load => exact ⟨hx, rfl⟩

theorem full_run {s t : St χ} (h : Base path s) (hr : Run true path gen kill s t) {x : Str} {c : χ}
    (hx : s.so x = .full c) : t.so x = .full c ∧ t.builds x = s.builds x := by
  induction hr with
  | refl => exact ⟨hx, rfl⟩
  | step hr hs ih =>
    have := full_step (h.run hr) hs ih.1
    exact ⟨this.1, this.2.trans ih.2⟩
  | crash p _ _ ih => exact ih

/-! ### Nobody loads a partial library -/

structure Good (path : Nat → Str) (gen : Nat → χ) (s : St χ) : Prop where
  part : ∀ x, s.so x = .part → ∃ p, s.pc p = .compiling ∧ path p = x
  full : ∀ x c, s.so x = .full c → ∃ q, path q = x ∧ c = gen q
  built : ∀ p, s.pc p = .built ∨ s.pc p = .free → ∃ c, s.so (path p) = .full c
  loaded : ∀ p f, s.pc p = .loaded f → ∃ q, path q = path p ∧ f = .full (gen q)

theorem Good.init : Good path gen (init : St χ) :=
  ⟨by simp [SoCache.init], by simp [SoCache.init], by simp [SoCache.init], by simp [SoCache.init]⟩

theorem Good.step {s t : St χ} (hb : Base path s) (h : Good path gen s) (hs : Step true path gen s t) :
    Good path gen t := by
  have hfull : ∀ x c, s.so x = .full c → t.so x = .full c := fun x c hx => (full_step hb hs hx).1
  cases hs with
  | lock p hp hl =>
    refine ⟨fun x hx => ?_, h.full, fun q hq => ?_, fun q f hq => ?_⟩
    · obtain ⟨q, h1, h2⟩ := h.part x hx
      have hqp : q ≠ p := fun he => by rw [he, hp] at h1; exact absurd h1 (by simp)
      exact ⟨q, by simp only [upd_ne _ _ hqp, h1], h2⟩
    · by_cases hqp : q = p
      · subst hqp; simp only [upd_same] at hq; exact absurd hq (by simp)
      · simp only [upd_ne _ _ hqp] at hq; exact h.built q hq
    · by_cases hqp : q = p
      · subst hqp; simp only [upd_same] at hq; exact absurd hq (by simp)
      · simp only [upd_ne _ _ hqp] at hq; exact h.loaded q f hq
  | hit p hp hc hn =>
    refine ⟨fun x hx => ?_, h.full, fun q hq => ?_, fun q f hq => ?_⟩
    · obtain ⟨q, h1, h2⟩ := h.part x hx
      have hqp : q ≠ p := fun he => by rw [he, hp] at h1; exact absurd h1 (by simp)
      exact ⟨q, by simp only [upd_ne _ _ hqp, h1], h2⟩
    · by_cases hqp : q = p
      · subst hqp
        cases hf : s.so (path q) with
        | absent => exact absurd hf hn
        | full c => exact ⟨c, rfl⟩
        | part =>
          obtain ⟨r, h1, h2⟩ := h.part _ hf
          have := hb.unique (p := r) (q := q) (by rw [h1]; rfl) (by rw [hp]; rfl) h2
          rw [this, hp] at h1
          exact absurd h1 (by simp)
      · simp only [upd_ne _ _ hqp] at hq; exact h.built q hq
    · by_cases hqp : q = p
      · subst hqp; simp only [upd_same] at hq; exact absurd hq (by simp)
      · simp only [upd_ne _ _ hqp] at hq; exact h.loaded q f hq
  | create p hp hn =>
    refine ⟨fun x hx => ?_, fun x c hx => ?_, fun q hq => ?_, fun q f hq => ?_⟩
    · by_cases hxp : x = path p
      · exact ⟨p, by simp only [upd_same], hxp.symm⟩
      · simp only [upd_ne _ _ hxp] at hx
        obtain ⟨q, h1, h2⟩ := h.part x hx
        have hqp : q ≠ p := fun he => by rw [he, hp] at h1; exact absurd h1 (by simp)
        exact ⟨q, by simp only [upd_ne _ _ hqp, h1], h2⟩
    · by_cases hxp : x = path p
      · subst hxp; simp only [upd_same] at hx; exact absurd hx (by simp)
      · simp only [upd_ne _ _ hxp] at hx; exact h.full x c hx
    · by_cases hqp : q = p
      · subst hqp; simp only [upd_same] at hq; exact absurd hq (by simp)
      · simp only [upd_ne _ _ hqp] at hq
        obtain ⟨c, hc⟩ := h.built q hq
        exact ⟨c, hfull _ _ hc⟩
    · by_cases hqp : q = p
      · subst hqp; simp only [upd_same] at hq; exact absurd hq (by simp)
      · simp only [upd_ne _ _ hqp] at hq; exact h.loaded q f hq
  | done p hp =>
    refine ⟨fun x hx => ?_, fun x c hx => ?_, fun q hq => ?_, fun q f hq => ?_⟩
    · by_cases hxp : x = path p
      · subst hxp; simp only [upd_same] at hx; exact absurd hx (by simp)
      · simp only [upd_ne _ _ hxp] at hx
        obtain ⟨q, h1, h2⟩ := h.part x hx
        have hqp : q ≠ p := fun he => hxp (by rw [← h2, he])
        exact ⟨q, by simp only [upd_ne _ _ hqp, h1], h2⟩
    · by_cases hxp : x = path p
      · subst hxp
        simp only [upd_same, File.full.injEq] at hx
        exact ⟨p, rfl, hx.symm⟩
      · simp only [upd_ne _ _ hxp] at hx; exact h.full x c hx
    · by_cases hqp : q = p
      · subst hqp; exact ⟨gen q, by simp only [upd_same]⟩
      · simp only [upd_ne _ _ hqp] at hq
        obtain ⟨c, hc⟩ := h.built q hq
        exact ⟨c, hfull _ _ hc⟩
    · by_cases hqp : q = p
      · subst hqp; simp only [upd_same] at hq; exact absurd hq (by simp)
      · simp only [upd_ne _ _ hqp] at hq; exact h.loaded q f hq
  | fail p hp =>
    refine ⟨fun x hx => ?_, fun x c hx => ?_, fun q hq => ?_, fun q f hq => ?_⟩
    · by_cases hxp : x = path p
      · subst hxp; simp only [upd_same] at hx; exact absurd hx (by simp)
      · simp only [upd_ne _ _ hxp] at hx
        obtain ⟨q, h1, h2⟩ := h.part x hx
        have hqp : q ≠ p := fun he => hxp (by rw [← h2, he])
        exact ⟨q, by simp only [upd_ne _ _ hqp, h1], h2⟩
    · by_cases hxp : x = path p
      · subst hxp; simp only [upd_same] at hx; exact absurd hx (by simp)
      · simp only [upd_ne _ _ hxp] at hx; exact h.full x c hx
    · by_cases hqp : q = p
      · subst hqp; simp only [upd_same] at hq; exact absurd hq (by simp)
      · simp only [upd_ne _ _ hqp] at hq
        obtain ⟨c, hc⟩ := h.built q hq
        exact ⟨c, hfull _ _ hc⟩
    · by_cases hqp : q = p
      · subst hqp; simp only [upd_same] at hq; exact absurd hq (by simp)
      · simp only [upd_ne _ _ hqp] at hq; exact h.loaded q f hq
  | unlock p hp =>
    refine ⟨fun x hx => ?_, h.full, fun q hq => ?_, fun q f hq => ?_⟩
    · obtain ⟨q, h1, h2⟩ := h.part x hx
      have hqp : q ≠ p := fun he => by rw [he, hp] at h1; exact absurd h1 (by simp)
      exact ⟨q, by simp only [upd_ne _ _ hqp, h1], h2⟩
    · by_cases hqp : q = p
      · subst hqp; exact h.built q (.inl hp)
      · simp only [upd_ne _ _ hqp] at hq; exact h.built q hq
    · by_cases hqp : q = p
      · subst hqp; simp only [upd_same] at hq; exact absurd hq (by simp)
      · simp only [upd_ne _ _ hqp] at hq; exact h.loaded q f hq
  | load p hp =>
    refine ⟨fun x hx => ?_, h.full, fun q hq => ?_, fun q f hq => ?_⟩
    · obtain ⟨q, h1, h2⟩ := h.part x hx
      have hqp : q ≠ p := fun he => by rw [he, hp] at h1; exact absurd h1 (by simp)
      exact ⟨q, by simp only [upd_ne _ _ hqp, h1], h2⟩
    · by_cases hqp : q = p
      · subst hqp; simp only [upd_same] at hq; exact absurd hq (by simp)
      · simp only [upd_ne _ _ hqp] at hq; exact h.built q hq
    · by_cases hqp : q = p
      · subst hqp
        simp only [upd_same, PC.loaded.injEq] at hq
        obtain ⟨c, hc⟩ := h.built q (.inr hp)
        obtain ⟨r, h1, h2⟩ := h.full _ _ hc
        exact ⟨r, h1, by rw [← hq, hc, h2]⟩
      · simp only [upd_ne _ _ hqp] at hq; exact h.loaded q f hq

theorem Good.crash {s : St χ} (h : Good path gen s) {p : Nat} (hp : s.pc p ≠ .compiling) :
    Good path gen (crash s p) := by
  refine ⟨fun x hx => ?_, h.full, fun q hq => ?_, fun q f hq => ?_⟩
  · obtain ⟨q, h1, h2⟩ := h.part x hx
    have hqp : q ≠ p := fun he => hp (by rw [← he, h1])
    exact ⟨q, by simp only [SoCache.crash, upd_ne _ _ hqp, h1], h2⟩
  · by_cases hqp : q = p
    · subst hqp; simp only [SoCache.crash, upd_same] at hq; exact absurd hq (by simp)
    · simp only [SoCache.crash, upd_ne _ _ hqp] at hq; exact h.built q hq
  · by_cases hqp : q = p
    · subst hqp; simp only [SoCache.crash, upd_same] at hq; exact absurd hq (by simp)
    · simp only [SoCache.crash, upd_ne _ _ hqp] at hq; exact h.loaded q f hq

theorem Good.run {s t : St χ} (hb : Base path s) (h : Good path gen s) (hk : ∀ c, kill c → c ≠ .compiling)
    (hr : Run true path gen kill s t) : Good path gen t := by
  induction hr with
  | refl => exact h
  | step hr hs ih => exact ih.step (hb.run hr) hs
  | crash p _ hp ih => exact ih.crash (hk _ hp)

/-! ### Progress -/

theorem Run.trans {s t u : St χ} (h : Run cache path gen kill s t) (h' : Run cache path gen kill t u) :
    Run cache path gen kill s u := by
  induction h' with
  | refl => exact h
  | step _ hs ih => exact .step ih hs
  | crash p _ hp ih => exact .crash p ih hp

theorem Run.one {s t : St χ} (h : Step cache path gen s t) : Run cache path gen kill s t := .step (.refl s) h

/-- A process in the critical section can leave it. -/
theorem can_leave {s : St χ} (q : Nat) (hq : (s.pc q).inside = true) :
    ∃ t, Run cache path gen kill s t ∧ t.pc q = .free ∧ t.lock (path q) = none ∧ ∀ p, p ≠ q → t.pc p = s.pc p := by
  have hbuilt : ∀ s : St χ, s.pc q = .built →
      ∃ t, Run cache path gen kill s t ∧ t.pc q = .free ∧ t.lock (path q) = none ∧ ∀ p, p ≠ q → t.pc p = s.pc p :=
    fun s h => ⟨_, .one (.unlock q h), upd_same _ _ _, upd_same _ _ _, fun p hp => upd_ne _ _ hp⟩
  have hcomp : ∀ s : St χ, s.pc q = .compiling →
      ∃ t, Run cache path gen kill s t ∧ t.pc q = .free ∧ t.lock (path q) = none ∧ ∀ p, p ≠ q → t.pc p = s.pc p := by
    intro s h
    obtain ⟨t, h1, h2, h3, h4⟩ := hbuilt { s with so := upd s.so (path q) (.full (gen q)), pc := upd s.pc q .built }
      (upd_same _ _ _)
    exact ⟨t, (Run.one (.done q h)).trans h1, h2, h3, fun p hp => (h4 p hp).trans (upd_ne _ _ hp)⟩
  cases hc : s.pc q with
  | locked =>
    by_cases hh : cache = true ∧ s.so (path q) ≠ .absent
    · obtain ⟨t, h1, h2, h3, h4⟩ := hbuilt { s with pc := upd s.pc q .built } (upd_same _ _ _)
      exact ⟨t, (Run.one (.hit q hc hh.1 hh.2)).trans h1, h2, h3, fun p hp => (h4 p hp).trans (upd_ne _ _ hp)⟩
    · obtain ⟨t, h1, h2, h3, h4⟩ := hcomp { s with so := upd s.so (path q) .part, pc := upd s.pc q .compiling,
                                                   builds := upd s.builds (path q) (s.builds (path q) + 1) }
        (upd_same _ _ _)
      refine ⟨t, (Run.one (.create q hc fun he => ?_)).trans h1, h2, h3, fun p hp => (h4 p hp).trans (upd_ne _ _ hp)⟩
      exact Classical.byContradiction fun hn => hh ⟨he, hn⟩
  | compiling => exact hcomp s hc
  | built => exact hbuilt s hc
  | start => rw [hc] at hq; exact absurd hq (by simp [PC.inside])
  | free => rw [hc] at hq; exact absurd hq (by simp [PC.inside])
  | loaded f => rw [hc] at hq; exact absurd hq (by simp [PC.inside])
  | dead => rw [hc] at hq; exact absurd hq (by simp [PC.inside])

theorem can_load {s : St χ} (hb : Base path s) (p : Nat) (hp : s.pc p ≠ .dead) :
    ∃ t f, Run cache path gen kill s t ∧ t.pc p = .loaded f := by
  have hfree : ∀ s : St χ, s.pc p = .free → ∃ t f, Run cache path gen kill s t ∧ t.pc p = .loaded f :=
    fun s h => ⟨_, _, .one (.load p h), upd_same _ _ _⟩
  have hin : ∀ s : St χ, (s.pc p).inside = true → ∃ t f, Run cache path gen kill s t ∧ t.pc p = .loaded f := by
    intro s h
    obtain ⟨t, h1, h2, -⟩ := can_leave (cache := cache) (path := path) (gen := gen) (kill := kill) p h
    obtain ⟨u, f, h3, h4⟩ := hfree t h2
    exact ⟨u, f, h1.trans h3, h4⟩
  have hstart : ∀ s : St χ, s.pc p = .start → s.lock (path p) = none →
      ∃ t f, Run cache path gen kill s t ∧ t.pc p = .loaded f := by
    intro s h hl
    obtain ⟨t, f, h1, h2⟩ := hin { s with lock := upd s.lock (path p) (some p), pc := upd s.pc p .locked }
      (by simp only [upd_same]; rfl)
    exact ⟨t, f, (Run.one (.lock p h hl)).trans h1, h2⟩
  cases hc : s.pc p with
  | start =>
    cases hl : s.lock (path p) with
    | none => exact hstart s hc hl
    | some q =>
      obtain ⟨h1, h2⟩ := hb.holder _ _ hl
      obtain ⟨t, k1, -, k3, k4⟩ := can_leave (cache := cache) (path := path) (gen := gen) (kill := kill) q h2
      have hpq : p ≠ q := fun he => by rw [← he, hc] at h2; exact absurd h2 (by simp [PC.inside])
      obtain ⟨u, f, h3, h4⟩ := hstart t ((k4 p hpq).trans hc) (by rw [← h1]; exact k3)
      exact ⟨u, f, k1.trans h3, h4⟩
  | free => exact hfree s hc
  | loaded f => exact ⟨s, f, .refl s, hc⟩
  | dead => exact absurd hc hp
  | locked => exact hin s (by rw [hc]; rfl)
  | compiling => exact hin s (by rw [hc]; rfl)
  | built => exact hin s (by rw [hc]; rfl)

end

/-! ### Names -/

theorem take_path {β : Type} {dir sha version : Str} {md5 : Str → Str} (hm : ∀ s, 16 ≤ (md5 s).length)
    {p q : Prog β} (h : soPath dir sha version md5 p = soPath dir sha version md5 q) :
    (md5 (cacheStr sha version p)).take 16 = (md5 (cacheStr sha version q)).take 16 := by
  rw [soPath, soPath] at h
  have h := List.append_cancel_right h
  refine (List.append_inj' h ?_).2
  rw [List.length_take, List.length_take, Nat.min_eq_left (hm _), Nat.min_eq_left (hm _)]

/-- Replacing the text of one file in a list of files. -/
theorem concat_ne {file t' : Str} : ∀ (l l' : List Node) {t : Str}, l.map Node.file = l'.map Node.file →
    (∀ n ∈ l, n.file = file → n.text = t) → (∀ n ∈ l', n.file = file → n.text = t') →
    (∀ n ∈ l, ∀ n' ∈ l', n.file ≠ file → n.file = n'.file → n.text = n'.text) →
    (∃ n ∈ l, n.file = file) → t ≠ t' → l.flatMap Node.text ≠ l'.flatMap Node.text := by
  intro l l' t hf h1 h2 h3 hex hne he
  -- lengths
  have hlen : ∀ (l l' : List Node), l.map Node.file = l'.map Node.file →
      (∀ n ∈ l, n.file = file → n.text = t) → (∀ n ∈ l', n.file = file → n.text = t') →
      (∀ n ∈ l, ∀ n' ∈ l', n.file ≠ file → n.file = n'.file → n.text = n'.text) →
      (l.flatMap Node.text).length + (l.countP fun n => decide (n.file = file)) * t'.length =
        (l'.flatMap Node.text).length + (l.countP fun n => decide (n.file = file)) * t.length := by
    intro l
    induction l with
    | nil => intro l' hf _ _ _; cases l' with
      | nil => simp
      | cons b r => simp at hf
    | cons a r ih =>
      intro l' hf h1 h2 h3
      cases l' with
      | nil => simp at hf
      | cons b r' =>
        simp only [List.map_cons, List.cons.injEq] at hf
        have := ih r' hf.2 (fun n hn => h1 n (by simp [hn])) (fun n hn => h2 n (by simp [hn]))
          (fun n hn n' hn' => h3 n (by simp [hn]) n' (by simp [hn']))
        simp only [List.flatMap_cons, List.length_append, List.countP_cons]
        by_cases ha : a.file = file
        · rw [h1 a (by simp) ha, h2 b (by simp) (by rw [← hf.1]; exact ha)]
          simp only [ha, decide_true, if_true, Nat.add_mul, Nat.one_mul]
          omega
        · rw [h3 a (by simp) b (by simp) ha hf.1]
          simp only [ha, decide_false, Bool.false_eq_true, if_false, Nat.add_zero]
          omega
  have hl := hlen l l' hf h1 h2 h3
  rw [he] at hl
  have hc : 0 < l.countP fun n => decide (n.file = file) := by
    obtain ⟨n, hn, hn'⟩ := hex
    exact List.countP_pos_iff.2 ⟨n, hn, by simpa using hn'⟩
  have htl : t.length = t'.length := by
    have := Nat.add_left_cancel hl
    exact (Nat.eq_of_mul_eq_mul_left hc this).symm
  -- aligned
  have halign : ∀ (l l' : List Node), l.map Node.file = l'.map Node.file →
      (∀ n ∈ l, n.file = file → n.text = t) → (∀ n ∈ l', n.file = file → n.text = t') →
      (∀ n ∈ l, ∀ n' ∈ l', n.file ≠ file → n.file = n'.file → n.text = n'.text) →
      (∃ n ∈ l, n.file = file) → l.flatMap Node.text = l'.flatMap Node.text → False := by
    intro l
    induction l with
    | nil => intro l' _ _ _ _ hex _; simp at hex
    | cons a r ih =>
      intro l' hf h1 h2 h3 hex he
      cases l' with
      | nil => simp at hf
      | cons b r' =>
        simp only [List.map_cons, List.cons.injEq] at hf
        simp only [List.flatMap_cons] at he
        by_cases ha : a.file = file
        · rw [h1 a (by simp) ha, h2 b (by simp) (by rw [← hf.1]; exact ha)] at he
          exact hne (List.append_inj he htl).1
        · rw [h3 a (by simp) b (by simp) ha hf.1] at he
          obtain ⟨n, hn, hn'⟩ := hex
          rcases List.mem_cons.1 hn with e | e
          · rw [e] at hn'; exact ha hn'
          · exact ih r' hf.2 (fun n hn => h1 n (by simp [hn])) (fun n hn => h2 n (by simp [hn]))
              (fun n hn n' hn' => h3 n (by simp [hn]) n' (by simp [hn'])) ⟨n, e, hn'⟩ (List.append_cancel_left he)
  exact halign l l' hf h1 h2 h3 hex he

/-! ### One program after the other -/

theorem scripts_spec {χ β : Type} (path : Prog β → Str) (gen : Prog β → χ) : ∀ (ps : List (Prog β)) (so : Str → Option χ),
    (∀ p ∈ ps, ∀ c, so (path p) = some c → c = gen p) →
    (∀ p ∈ ps, ∀ q ∈ ps, path p = path q → gen p = gen q) → scripts path gen so ps = ps.map gen
  | [], _, _, _ => rfl
  | p :: r, so, h, hg => by
    rw [scripts, List.map_cons, build]
    cases hs : so (path p) with
    | some c =>
      dsimp only
      rw [h p (by simp) c hs, scripts_spec path gen r so (fun q hq => h q (by simp [hq]))
        (fun q hq q' hq' => hg q (by simp [hq]) q' (by simp [hq']))]
    | none =>
      dsimp only
      rw [scripts_spec path gen r _ (fun q hq c hc => ?_) (fun q hq q' hq' => hg q (by simp [hq]) q' (by simp [hq']))]
      by_cases hpq : path q = path p
      · rw [hpq, upd_same] at hc
        rw [← Option.some.inj hc, hg q (by simp [hq]) p (by simp) hpq]
      · rw [upd_ne _ _ hpq] at hc
        exact h q (by simp [hq]) c hc

end Verif.SoCache
