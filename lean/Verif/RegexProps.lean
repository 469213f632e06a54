/-
C87, C88: `Regex.split` and `Regex.replace`.
-/
import Verif.Regex
import Mathlib.Tactic.ByContra
import Mathlib.Tactic.Tauto

namespace Verif.Regex

abbrev Caps := List (Option (Nat × Nat))

/-! ## The matches that a scan finds -/

/-- A match: where it starts and ends, and the groups from 1 on. -/
structure Hit where
  f : Nat
  t : Nat
  r : Caps

def Hit.caps (m : Hit) : Caps := some (m.f, m.t) :: m.r

/-- The scan of the code: after an empty match it goes on one byte further. -/
inductive Scan (E : Engine) (s : Bytes) : Nat → List Hit → Prop where
  | stop {off} : E.exec false s off = .noMatch → Scan E s off []
  | step {off ms} (m : Hit) : E.exec false s off = .matched m.caps → m.f < m.t → Scan E s m.t ms → Scan E s off (m :: ms)
  | empty {off ms} (m : Hit) : E.exec false s off = .matched m.caps → m.t = m.f → m.t < s.length →
      Scan E s (m.t + 1) ms → Scan E s off (m :: ms)
  | last {off} (m : Hit) : E.exec false s off = .matched m.caps → m.t = m.f → s.length ≤ m.t → Scan E s off [m]

/-- Python's search: `ne` finds the first match that is not an empty one at the offset itself. -/
def pyFind (E : Engine) (ne : Bytes → Nat → Res) (s : Bytes) (off : Nat) (adv : Bool) : Res :=
  if adv then ne s off else E.exec false s off

/-- The scan of Python's `re` (since 3.7): after an empty match the next one must not be empty and at the same place. -/
inductive PyScan (E : Engine) (ne : Bytes → Nat → Res) (s : Bytes) : Nat → Bool → List Hit → Prop where
  | stop {off adv} : pyFind E ne s off adv = .noMatch → PyScan E ne s off adv []
  | step {off adv ms} (m : Hit) : pyFind E ne s off adv = .matched m.caps →
      PyScan E ne s m.t (decide (m.t = m.f)) ms → PyScan E ne s off adv (m :: ms)

/-- The texts between the matches, and the text after the last one. -/
def cut (s : Bytes) : Nat → List Hit → List Bytes
  | cp, [] => [slice s cp s.length]
  | cp, m :: ms => slice s cp m.f :: cut s m.t ms

/-- The text with every match replaced. -/
def substitute (s : Bytes) (g : Hit → Bytes) : Nat → List Hit → Bytes
  | cp, [] => slice s cp s.length
  | cp, m :: ms => slice s cp m.f ++ g m ++ substitute s g m.t ms

/-- The end of the last match. -/
def endOf : Nat → List Hit → Nat
  | cp, [] => cp
  | _, m :: ms => endOf m.t ms

/-! ## Slices -/

theorem slice_length (s : Bytes) (f t : Nat) (h : t ≤ s.length) : (slice s f t).length = t - f := by
  simp [slice]; omega

theorem slice_append (s : Bytes) (a b c : Nat) (h1 : a ≤ b) (h2 : b ≤ c) :
    slice s a b ++ slice s b c = slice s a c := by
  unfold slice
  have : s.drop b = (s.drop a).drop (b - a) := by rw [List.drop_drop]; congr 1; omega
  rw [this]
  have h3 : c - a = (b - a) + (c - b) := by omega
  rw [h3, List.take_add]

theorem slice_full (s : Bytes) : slice s 0 s.length = s := by simp [slice]

theorem slice_nil (s : Bytes) (a : Nat) : slice s a a = [] := by simp [slice]

/-! ## The loops -/

theorem pcreExec_plain (E : Engine) (s : Bytes) (off : Nat) (h : off ≤ s.length) :
    pcreExec E noOptions s off = E.exec false s off := by
  have h1 : ¬ ((off : Int) < 0) := by omega
  have h2 : ¬ ((s.length : Int) < off) := by omega
  simp [pcreExec, noOptions, h1, h2]

/-- No call of the engine on this subject fails. -/
def NoError (E : Engine) (s : Bytes) : Prop := ∀ off ≤ s.length, E.exec false s off ≠ .error

theorem exec_cases (E : Engine) (hE : Lawful E) (s : Bytes) (off : Nat) (h : off ≤ s.length) :
    E.exec false s off = .noMatch ∨ E.exec false s off = .error ∨
    ∃ m : Hit, E.exec false s off = .matched m.caps ∧ off ≤ m.f ∧ m.f ≤ m.t ∧ m.t ≤ s.length := by
  cases hx : E.exec false s off with
  | noMatch => exact .inl rfl
  | error => exact .inr (.inl rfl)
  | matched caps =>
    obtain ⟨f, t, r, rfl, h1, h2, h3⟩ := hE.span _ _ _ _ h hx
    exact .inr (.inr ⟨⟨f, t, r⟩, rfl, h1, h2, h3⟩)

theorem splitLoop_hit (E : Engine) (s : Bytes) (fuel off cp count : Nat) (m : Hit) (h1 : off ≤ s.length)
    (h : E.exec false s off = .matched m.caps) : splitLoop E s (fuel + 1) off cp count =
      if m.t = m.f then
        if s.length ≤ m.t then some (some ([slice s cp m.f], m.t, count + 1))
        else (splitLoop E s fuel (m.t + 1) m.t (count + 1)).map fun x => x.map fun r => (slice s cp m.f :: r.1, r.2)
      else (splitLoop E s fuel m.t m.t (count + 1)).map fun x => x.map fun r => (slice s cp m.f :: r.1, r.2) := by
  have h' : E.exec false s off = .matched (some (m.f, m.t) :: m.r) := h
  simp only [splitLoop, pcreExec_plain E s off h1, h']
  by_cases he : m.t = m.f
  · by_cases hl : s.length ≤ m.t
    · have : m.f = m.t ∧ s.length < m.t + 1 := ⟨he.symm, by omega⟩
      simp [he.symm, show s.length < m.t + 1 by omega, hl]
    · simp [he.symm, show ¬ s.length < m.t + 1 by omega, hl]
  · simp [he]

/-- The loop ends, whatever the engine answers. -/
theorem splitLoop_ends (E : Engine) (hE : Lawful E) (s : Bytes) : ∀ fuel off cp count, off ≤ s.length →
    s.length - off + 1 ≤ fuel → splitLoop E s fuel off cp count ≠ none := by
  intro fuel
  induction fuel with
  | zero => intro off cp count h1 h2; omega
  | succ fuel ih =>
    intro off cp count h1 h2
    rcases exec_cases E hE s off h1 with h | h | ⟨m, h, k1, k2, k3⟩
    · simp [splitLoop, pcreExec_plain E s off h1, h]
    · simp [splitLoop, pcreExec_plain E s off h1, h]
    · rw [splitLoop_hit E s fuel off cp count m h1 h]
      split
      · split
        · simp
        · simp only [ne_eq, Option.map_eq_none_iff]
          exact ih _ _ _ (by omega) (by omega)
      · simp only [ne_eq, Option.map_eq_none_iff]
        exact ih _ _ _ (by omega) (by omega)

theorem splitLoop_scan (E : Engine) (hE : Lawful E) (s : Bytes) (hn : NoError E s) : ∀ fuel off cp count,
    off ≤ s.length → s.length - off + 1 ≤ fuel → ∃ ms, Scan E s off ms ∧
    (∃ ps, splitLoop E s fuel off cp count = some (some (ps, endOf cp ms, count + ms.length)) ∧
      cut s cp ms = ps ++ [slice s (endOf cp ms) s.length]) := by
  intro fuel
  induction fuel with
  | zero => intro off cp count h1 h2; omega
  | succ fuel ih =>
    intro off cp count h1 h2
    rcases exec_cases E hE s off h1 with h | h | ⟨m, h, k1, k2, k3⟩
    · exact ⟨[], .stop h, [], by simp [splitLoop, pcreExec_plain E s off h1, h, endOf], rfl⟩
    · exact absurd h (hn off h1)
    · rw [splitLoop_hit E s fuel off cp count m h1 h]
      by_cases he : m.t = m.f
      · rw [if_pos he]
        by_cases hl : s.length ≤ m.t
        · rw [if_pos hl]
          exact ⟨[m], .last m h he hl, [slice s cp m.f], rfl, rfl⟩
        · rw [if_neg hl]
          obtain ⟨ms, s1, ps, e1, e2⟩ := ih (m.t + 1) m.t (count + 1) (by omega) (by omega)
          refine ⟨m :: ms, .empty m h he (by omega) s1, slice s cp m.f :: ps, ?_, ?_⟩
          · rw [e1]
            simp [endOf]; omega
          · simp [cut, endOf, e2]
      · rw [if_neg he]
        obtain ⟨ms, s1, ps, e1, e2⟩ := ih m.t m.t (count + 1) (by omega) (by omega)
        refine ⟨m :: ms, .step m h (by omega) s1, slice s cp m.f :: ps, ?_, ?_⟩
        · rw [e1]
          simp [endOf]; omega
        · simp [cut, endOf, e2]

theorem scan_det (E : Engine) (s : Bytes) {off : Nat} {ms : List Hit} (h : Scan E s off ms) :
    ∀ ms', Scan E s off ms' → ms = ms' := by
  have inj : ∀ {m m' : Hit}, m.caps = m'.caps → m = m' := by
    intro m m' h
    cases m; cases m'
    simp [Hit.caps] at h
    simp [h]
  have hit : ∀ {off} {m m' : Hit}, E.exec false s off = .matched m.caps → E.exec false s off = .matched m'.caps → m = m' := by
    intro off m m' h1 h2
    rw [h1] at h2
    exact inj (by injection h2)
  induction h with
  | stop h =>
    intro ms' h'
    cases h' with
    | stop _ => rfl
    | step m h2 => rw [h] at h2; simp at h2
    | empty m h2 => rw [h] at h2; simp at h2
    | last m h2 => rw [h] at h2; simp at h2
  | step m h hlt _ ih =>
    intro ms' h'
    cases h' with
    | stop h2 => rw [h] at h2; simp at h2
    | step m' h2 h3 h4 => obtain rfl := hit h h2; rw [ih _ h4]
    | empty m' h2 h3 => obtain rfl := hit h h2; omega
    | last m' h2 h3 => obtain rfl := hit h h2; omega
  | empty m h he hl _ ih =>
    intro ms' h'
    cases h' with
    | stop h2 => rw [h] at h2; simp at h2
    | step m' h2 h3 => obtain rfl := hit h h2; omega
    | empty m' h2 h3 _ h4 => obtain rfl := hit h h2; rw [ih _ h4]
    | last m' h2 h3 => obtain rfl := hit h h2; omega
  | last m h he hl =>
    intro ms' h'
    cases h' with
    | stop h2 => rw [h] at h2; simp at h2
    | step m' h2 h3 => obtain rfl := hit h h2; omega
    | empty m' h2 h3 => obtain rfl := hit h h2; omega
    | last m' h2 h3 => obtain rfl := hit h h2; rfl

theorem scan_bounds (E : Engine) (hE : Lawful E) (s : Bytes) {off : Nat} {ms : List Hit} (h : Scan E s off ms) :
    ∀ cp, cp ≤ off → off ≤ s.length → endOf cp ms ≤ s.length ∧ ∀ m ∈ ms, m.f ≤ m.t ∧ m.t ≤ s.length := by
  have sp : ∀ {off} {m : Hit}, off ≤ s.length → E.exec false s off = .matched m.caps →
      off ≤ m.f ∧ m.f ≤ m.t ∧ m.t ≤ s.length := by
    intro off m ho hx
    obtain ⟨f, t, r, he, h1, h2, h3⟩ := hE.span _ _ _ _ ho hx
    simp [Hit.caps] at he
    obtain ⟨⟨rfl, rfl⟩, _⟩ := he
    exact ⟨h1, h2, h3⟩
  induction h with
  | stop h => intro cp h1 h2; simp [endOf]; omega
  | step m hx hlt _ ih =>
    intro cp h1 h2
    obtain ⟨k1, k2, k3⟩ := sp h2 hx
    obtain ⟨i1, i2⟩ := ih m.t (by omega) k3
    exact ⟨i1, by
      intro x hx; rcases List.mem_cons.1 hx with rfl | hx
      · exact ⟨k2, k3⟩
      · exact i2 x hx⟩
  | empty m hx he hl _ ih =>
    intro cp h1 h2
    obtain ⟨k1, k2, k3⟩ := sp h2 hx
    obtain ⟨i1, i2⟩ := ih m.t (by omega) (by omega)
    exact ⟨i1, by
      intro x hx; rcases List.mem_cons.1 hx with rfl | hx
      · exact ⟨k2, k3⟩
      · exact i2 x hx⟩
  | last m hx he hl =>
    intro cp h1 h2
    obtain ⟨k1, k2, k3⟩ := sp h2 hx
    exact ⟨k3, by
      intro x hx; rcases List.mem_cons.1 hx with rfl | hx
      · exact ⟨k2, k3⟩
      · simp at hx⟩

theorem slice_eq_nil (s : Bytes) (f : Nat) (h : f ≤ s.length) : slice s f s.length = [] ↔ f = s.length := by
  rw [← List.length_eq_zero_iff, slice_length s f _ (Nat.le_refl _)]
  omega

/-- Without the last piece if that is empty and there is another one. -/
def dropLastEmpty (ps : List Bytes) : List Bytes :=
  if 1 < ps.length ∧ ps.getLast? = some [] then ps.dropLast else ps

theorem cut_length (s : Bytes) : ∀ ms cp, (cut s cp ms).length = ms.length + 1 := by
  intro ms
  induction ms with
  | nil => intro cp; rfl
  | cons m ms ih => intro cp; simp [cut, ih]

theorem split_scan (E : Engine) (hE : Lawful E) (s : Bytes) (hn : NoError E s) :
    ∃ ms, Scan E s 0 ms ∧ split E s = some (dropLastEmpty (cut s 0 ms)) := by
  obtain ⟨ms, h1, ps, h2, h3⟩ := splitLoop_scan E hE s hn (s.length + 2) 0 0 0 (by omega) (by omega)
  refine ⟨ms, h1, ?_⟩
  have hb := (scan_bounds E hE s h1 0 (by omega) (by omega)).1
  unfold split splitHelper
  rw [h2]
  simp only [Option.map_some, Option.getD_some, Nat.zero_add, Option.some.injEq]
  have hlen := cut_length s ms 0
  rw [h3] at hlen
  simp at hlen
  by_cases hm : ms = []
  · subst hm
    simp at hlen
    subst hlen
    simp [dropLastEmpty, cut, slice_full]
  · have : ms.length ≠ 0 := by simpa using hm
    rw [if_neg this, h3]
    have hl : 1 < (ps ++ [slice s (endOf 0 ms) s.length]).length := by simp; omega
    unfold dropLastEmpty
    by_cases he : endOf 0 ms = s.length
    · rw [if_neg (by omega), if_pos ⟨hl, by simp [he, slice_nil]⟩]
      simp
    · rw [if_pos (by omega), if_neg]
      rintro ⟨_, h⟩
      simp at h
      exact he ((slice_eq_nil s _ hb).1 h)

/-- Python's scan and the code's find the same matches if, after an empty match, there is no other match at the same
place. -/
theorem pyScan_scan (E : Engine) (ne : Bytes → Nat → Res) (s : Bytes)
    (hne : ∀ off m, E.exec false s off = .matched (Hit.caps m) → m.t = m.f →
      ne s m.t = if m.t < s.length then E.exec false s (m.t + 1) else .noMatch)
    {off : Nat} {ms : List Hit} (h : Scan E s off ms) (hE : Lawful E) (ho : off ≤ s.length) :
    PyScan E ne s off false ms := by
  have key : ∀ {off ms}, Scan E s off ms → off ≤ s.length → ∀ o adv, pyFind E ne s o adv = E.exec false s off →
      PyScan E ne s o adv ms := by
    intro off ms h
    have sp : ∀ {off} {m : Hit}, off ≤ s.length → E.exec false s off = .matched m.caps → m.f ≤ m.t ∧ m.t ≤ s.length := by
      intro off m ho hx
      obtain ⟨f, t, r, he, h1, h2, h3⟩ := hE.span _ _ _ _ ho hx
      simp [Hit.caps] at he
      obtain ⟨⟨rfl, rfl⟩, _⟩ := he
      exact ⟨h2, h3⟩
    induction h with
    | stop h => intro _ o adv hp; exact .stop (by rw [hp, h])
    | step m h hlt _ ih =>
      intro ho o adv hp
      refine .step m (by rw [hp, h]) (ih (sp ho h).2 _ _ ?_)
      have : ¬ m.t = m.f := by omega
      simp [pyFind, this]
    | empty m h he hl _ ih =>
      intro ho o adv hp
      refine .step m (by rw [hp, h]) (ih (by omega) _ _ ?_)
      simp only [pyFind, he, decide_true, if_true]
      rw [← he, hne _ m h he, if_pos hl]
    | last m h he hl =>
      intro ho o adv hp
      refine .step m (by rw [hp, h]) (.stop ?_)
      simp only [pyFind, he, decide_true, if_true]
      rw [← he, hne _ m h he, if_neg (by omega)]
  exact key h ho off false rfl

theorem pyScan_det (E : Engine) (ne : Bytes → Nat → Res) (s : Bytes) {off : Nat} {adv : Bool} {ms : List Hit}
    (h : PyScan E ne s off adv ms) : ∀ ms', PyScan E ne s off adv ms' → ms = ms' := by
  induction h with
  | stop h =>
    intro ms' h'
    cases h' with
    | stop _ => rfl
    | step m h2 => rw [h] at h2; simp at h2
  | step m h _ ih =>
    intro ms' h'
    cases h' with
    | stop h2 => rw [h] at h2; simp at h2
    | step m' h2 h3 =>
      rw [h] at h2
      injection h2 with h2
      have : m = m' := by
        cases m; cases m'
        simp [Hit.caps] at h2
        simp [h2]
      subst this
      rw [ih _ h3]

/-- **C87.**  The pieces are the texts between the matches that Python finds, without the last piece if it is empty; for
every engine that has the laws, does not fail, and has no second match at the place of an empty one. -/
theorem split_python_partial (E : Engine) (hE : Lawful E) (s : Bytes) (hn : NoError E s) (ne : Bytes → Nat → Res)
    (hne : ∀ off m, E.exec false s off = .matched (Hit.caps m) → m.t = m.f →
      ne s m.t = if m.t < s.length then E.exec false s (m.t + 1) else .noMatch) :
    ∃ ms, PyScan E ne s 0 false ms ∧ (∀ ms', PyScan E ne s 0 false ms' → ms' = ms) ∧
      split E s = some (dropLastEmpty (cut s 0 ms)) := by
  obtain ⟨ms, h1, h2⟩ := split_scan E hE s hn
  have h3 := pyScan_scan E ne s hne h1 hE (by omega)
  exact ⟨ms, h3, fun ms' h => (pyScan_det E ne s h3 ms' h).symm, h2⟩

/-- Splitting ends for every subject and engine, also when the engine fails. -/
theorem split_ends (E : Engine) (hE : Lawful E) (s : Bytes) : split E s ≠ none := by
  have := splitLoop_ends E hE s (s.length + 2) 0 0 0 (by omega) (by omega)
  simp [split, splitHelper, this]

/-- Pieces and separators in turn. -/
def weave : List Bytes → List Bytes → Bytes
  | p :: ps, q :: qs => p ++ q ++ weave ps qs
  | ps, _ => ps.flatten

theorem cut_weave (E : Engine) (hE : Lawful E) (s : Bytes) {off : Nat} {ms : List Hit} (h : Scan E s off ms) :
    ∀ cp, cp ≤ off → off ≤ s.length → weave (cut s cp ms) (ms.map fun m => slice s m.f m.t) = slice s cp s.length := by
  have sp : ∀ {off} {m : Hit}, off ≤ s.length → E.exec false s off = .matched m.caps →
      off ≤ m.f ∧ m.f ≤ m.t ∧ m.t ≤ s.length := by
    intro off m ho hx
    obtain ⟨f, t, r, he, h1, h2, h3⟩ := hE.span _ _ _ _ ho hx
    simp [Hit.caps] at he
    obtain ⟨⟨rfl, rfl⟩, _⟩ := he
    exact ⟨h1, h2, h3⟩
  induction h with
  | stop h => intro cp h1 h2; simp [cut, weave]
  | step m hx hlt _ ih =>
    intro cp h1 h2
    obtain ⟨k1, k2, k3⟩ := sp h2 hx
    rw [cut, List.map_cons, weave, ih m.t (by omega) k3, slice_append _ _ _ _ (by omega) (by omega),
      slice_append _ _ _ _ (by omega) (by omega)]
  | empty m hx he hl _ ih =>
    intro cp h1 h2
    obtain ⟨k1, k2, k3⟩ := sp h2 hx
    rw [cut, List.map_cons, weave, ih m.t (by omega) (by omega), slice_append _ _ _ _ (by omega) (by omega),
      slice_append _ _ _ _ (by omega) (by omega)]
  | last m hx he hl =>
    intro cp h1 h2
    obtain ⟨k1, k2, k3⟩ := sp h2 hx
    simp only [cut, List.map_cons, List.map_nil, weave, List.flatten_cons, List.flatten_nil, List.append_nil]
    rw [slice_append _ _ _ _ (by omega) (by omega), slice_append _ _ _ _ (by omega) (by omega)]

theorem weave_dropLast (ps qs : List Bytes) (h : ps.length = qs.length + 1) (hl : ps.getLast? = some []) :
    weave ps.dropLast qs = weave ps qs := by
  induction ps generalizing qs with
  | nil => simp at h
  | cons p ps ih =>
    cases qs with
    | nil =>
      simp at h
      subst h
      simp at hl
      subst hl
      simp [weave]
    | cons q qs =>
      cases ps with
      | nil => simp at h
      | cons p2 ps =>
        simp only [List.dropLast_cons_cons, weave]
        rw [ih qs (by simpa using h) (by simpa using hl)]

/-- Nothing of the text is lost or made up: the pieces and matched texts in turn are the subject. -/
theorem split_weave (E : Engine) (hE : Lawful E) (s : Bytes) (hn : NoError E s) :
    ∃ ps ms, split E s = some ps ∧ Scan E s 0 ms ∧ weave ps (ms.map fun m => slice s m.f m.t) = s := by
  obtain ⟨ms, h1, h2⟩ := split_scan E hE s hn
  refine ⟨_, ms, h2, h1, ?_⟩
  have h3 := cut_weave E hE s h1 0 (by omega) (by omega)
  rw [slice_full] at h3
  unfold dropLastEmpty
  split
  · rename_i h
    rw [weave_dropLast _ _ (by simp [cut_length]) h.2, h3]
  · exact h3

/-- A subject without a match is returned as it is. -/
theorem split_noMatch (E : Engine) (s : Bytes) (h : E.exec false s 0 = .noMatch) : split E s = some [s] := by
  have h' := pcreExec_plain E s 0 (by omega)
  rw [h] at h'
  have : splitLoop E s (s.length + 2) 0 0 0 = some (some ([], 0, 0)) := by
    rw [splitLoop, h']
  simp [split, splitHelper, this]

/-! ## Replace -/

theorem codeLen_out (s : Bytes) (caps : Caps) (hg : ∀ f t, some (f, t) ∈ caps → f ≤ t ∧ t ≤ s.length) (c : Code) :
    (codeOut s caps c).length = codeLen caps c := by
  cases c with
  | copy bs => rfl
  | capture n =>
    simp only [codeOut, codeLen]
    split
    · cases hc : caps[n / 2]? with
      | none => simp
      | some o =>
        cases o with
        | none => simp
        | some p =>
          obtain ⟨f, t⟩ := p
          have := hg f t (List.mem_of_getElem? hc)
          simp [slice_length s f t this.2]
    · rfl

/-- The buffer has the size that is written. -/
theorem expand_some (s : Bytes) (caps : Caps) (hg : ∀ f t, some (f, t) ∈ caps → f ≤ t ∧ t ≤ s.length)
    (codes : List Code) : expand s caps codes = some (codes.map (codeOut s caps)).flatten := by
  unfold expand
  have : ((codes.map (codeOut s caps)).flatten).length = (codes.map (codeLen caps)).sum := by
    rw [List.length_flatten, List.map_map]
    congr 1
    apply List.map_congr_left
    intro c _
    exact codeLen_out s caps hg c
  simp [this]

/-- The text of a template for a match. -/
def filled (s : Bytes) (codes : List Code) (m : Hit) : Bytes := (codes.map (codeOut s m.caps)).flatten

theorem subLoop_hit (E : Engine) (hE : Lawful E) (s : Bytes) (codes : List Code) (fuel off cp count : Nat) (m : Hit)
    (h1 : off ≤ s.length) (h : E.exec false s off = .matched m.caps) : subLoop E s codes (fuel + 1) off cp count =
      if m.t = m.f then
        if s.length ≤ m.t then some (some (slice s cp m.f ++ filled s codes m, m.t, count + 1))
        else (subLoop E s codes fuel (m.t + 1) m.t (count + 1)).map fun x => x.map fun r =>
          (slice s cp m.f ++ filled s codes m ++ r.1, r.2)
      else (subLoop E s codes fuel m.t m.t (count + 1)).map fun x => x.map fun r =>
        (slice s cp m.f ++ filled s codes m ++ r.1, r.2) := by
  have h' : E.exec false s off = .matched (some (m.f, m.t) :: m.r) := h
  simp only [subLoop, pcreExec_plain E s off h1, h']
  rw [show expand s (some (m.f, m.t) :: m.r) codes = some (filled s codes m) from
    expand_some s _ (hE.groups _ _ _ _ h1 h) codes]
  by_cases he : m.t = m.f
  · by_cases hl : s.length ≤ m.t
    · have : m.f = m.t ∧ s.length < m.t + 1 := ⟨he.symm, by omega⟩
      simp [he.symm, show s.length < m.t + 1 by omega, hl]
    · simp [he.symm, show ¬ s.length < m.t + 1 by omega, hl]
  · simp [he]

theorem subLoop_ends (E : Engine) (hE : Lawful E) (s : Bytes) (codes : List Code) : ∀ fuel off cp count,
    off ≤ s.length → s.length - off + 1 ≤ fuel → subLoop E s codes fuel off cp count ≠ none := by
  intro fuel
  induction fuel with
  | zero => intro off cp count h1 h2; omega
  | succ fuel ih =>
    intro off cp count h1 h2
    rcases exec_cases E hE s off h1 with h | h | ⟨m, h, k1, k2, k3⟩
    · simp [subLoop, pcreExec_plain E s off h1, h]
    · simp [subLoop, pcreExec_plain E s off h1, h]
    · rw [subLoop_hit E hE s codes fuel off cp count m h1 h]
      split
      · split
        · simp
        · simp only [ne_eq, Option.map_eq_none_iff]
          exact ih _ _ _ (by omega) (by omega)
      · simp only [ne_eq, Option.map_eq_none_iff]
        exact ih _ _ _ (by omega) (by omega)

theorem subLoop_scan (E : Engine) (hE : Lawful E) (s : Bytes) (hn : NoError E s) (codes : List Code) :
    ∀ fuel off cp count, off ≤ s.length → s.length - off + 1 ≤ fuel → ∃ ms, Scan E s off ms ∧
    (∃ out, subLoop E s codes fuel off cp count = some (some (out, endOf cp ms, count + ms.length)) ∧
      substitute s (filled s codes) cp ms = out ++ slice s (endOf cp ms) s.length) := by
  intro fuel
  induction fuel with
  | zero => intro off cp count h1 h2; omega
  | succ fuel ih =>
    intro off cp count h1 h2
    rcases exec_cases E hE s off h1 with h | h | ⟨m, h, k1, k2, k3⟩
    · exact ⟨[], .stop h, [], by simp [subLoop, pcreExec_plain E s off h1, h, endOf], rfl⟩
    · exact absurd h (hn off h1)
    · rw [subLoop_hit E hE s codes fuel off cp count m h1 h]
      by_cases he : m.t = m.f
      · rw [if_pos he]
        by_cases hl : s.length ≤ m.t
        · rw [if_pos hl]
          exact ⟨[m], .last m h he hl, slice s cp m.f ++ filled s codes m, rfl, rfl⟩
        · rw [if_neg hl]
          obtain ⟨ms, s1, ps, e1, e2⟩ := ih (m.t + 1) m.t (count + 1) (by omega) (by omega)
          refine ⟨m :: ms, .empty m h he (by omega) s1, slice s cp m.f ++ filled s codes m ++ ps, ?_, ?_⟩
          · rw [e1]
            simp [endOf]; omega
          · simp [substitute, endOf, e2]
      · rw [if_neg he]
        obtain ⟨ms, s1, ps, e1, e2⟩ := ih m.t m.t (count + 1) (by omega) (by omega)
        refine ⟨m :: ms, .step m h (by omega) s1, slice s cp m.f ++ filled s codes m ++ ps, ?_, ?_⟩
        · rw [e1]
          simp [endOf]; omega
        · simp [substitute, endOf, e2]

theorem replace_scan (E : Engine) (hE : Lawful E) (s rep : Bytes) (hn : NoError E s) (codes : List Code)
    (hc : compile rep = some codes) :
    ∃ ms, Scan E s 0 ms ∧ replace E s rep = some (substitute s (filled s codes) 0 ms) := by
  obtain ⟨ms, h1, out, h2, h3⟩ := subLoop_scan E hE s hn codes (s.length + 2) 0 0 0 (by omega) (by omega)
  refine ⟨ms, h1, ?_⟩
  have hb := (scan_bounds E hE s h1 0 (by omega) (by omega)).1
  unfold replace subHelper
  simp only [hc, h2, Option.map_some, Option.getD_some, Nat.zero_add, Option.some.injEq, h3]
  by_cases hm : ms = []
  · subst hm
    simp only [endOf, substitute] at h3 ⊢
    simp [slice_full] at h3 ⊢
    simp [h3]
  · have : ms.length ≠ 0 := by simpa using hm
    rw [if_neg this]
    by_cases he : endOf 0 ms = s.length
    · rw [if_neg (by omega), he, slice_nil, List.append_nil]
    · rw [if_pos (by omega)]

/-- **C88.**  Every match that Python finds is replaced by the text of the template, and nothing else changes; for every
engine as in `split_python_partial` and every template that compiles. -/
theorem replace_python_partial (E : Engine) (hE : Lawful E) (s rep : Bytes) (hn : NoError E s) (codes : List Code)
    (hc : compile rep = some codes) (ne : Bytes → Nat → Res)
    (hne : ∀ off m, E.exec false s off = .matched (Hit.caps m) → m.t = m.f →
      ne s m.t = if m.t < s.length then E.exec false s (m.t + 1) else .noMatch) :
    ∃ ms, PyScan E ne s 0 false ms ∧ (∀ ms', PyScan E ne s 0 false ms' → ms' = ms) ∧
      replace E s rep = some (substitute s (filled s codes) 0 ms) := by
  obtain ⟨ms, h1, h2⟩ := replace_scan E hE s rep hn codes hc
  have h3 := pyScan_scan E ne s hne h1 hE (by omega)
  exact ⟨ms, h3, fun ms' h => (pyScan_det E ne s h3 ms' h).symm, h2⟩

/-- Replacing ends for every subject, template and engine. -/
theorem replace_ends (E : Engine) (hE : Lawful E) (s rep : Bytes) : replace E s rep ≠ none := by
  unfold replace subHelper
  cases hc : compile rep with
  | none => simp
  | some codes =>
    have := subLoop_ends E hE s codes (s.length + 2) 0 0 0 (by omega) (by omega)
    simp [this]

theorem substitute_self (E : Engine) (hE : Lawful E) (s : Bytes) {off : Nat} {ms : List Hit} (h : Scan E s off ms) :
    ∀ cp, cp ≤ off → off ≤ s.length → substitute s (fun m => slice s m.f m.t) cp ms = slice s cp s.length := by
  have sp : ∀ {off} {m : Hit}, off ≤ s.length → E.exec false s off = .matched m.caps →
      off ≤ m.f ∧ m.f ≤ m.t ∧ m.t ≤ s.length := by
    intro off m ho hx
    obtain ⟨f, t, r, he, h1, h2, h3⟩ := hE.span _ _ _ _ ho hx
    simp [Hit.caps] at he
    obtain ⟨⟨rfl, rfl⟩, _⟩ := he
    exact ⟨h1, h2, h3⟩
  induction h with
  | stop h => intro cp h1 h2; rfl
  | step m hx hlt _ ih =>
    intro cp h1 h2
    obtain ⟨k1, k2, k3⟩ := sp h2 hx
    rw [substitute, ih m.t (by omega) k3, slice_append _ _ _ _ (by omega) (by omega),
      slice_append _ _ _ _ (by omega) (by omega)]
  | empty m hx he hl _ ih =>
    intro cp h1 h2
    obtain ⟨k1, k2, k3⟩ := sp h2 hx
    rw [substitute, ih m.t (by omega) (by omega), slice_append _ _ _ _ (by omega) (by omega),
      slice_append _ _ _ _ (by omega) (by omega)]
  | last m hx he hl =>
    intro cp h1 h2
    obtain ⟨k1, k2, k3⟩ := sp h2 hx
    rw [substitute, substitute, slice_append _ _ _ _ (by omega) (by omega), slice_append _ _ _ _ (by omega) (by omega)]

/-- Replacing every match by itself, `$0`, changes nothing; for every engine and subject. -/
theorem replace_whole_match (E : Engine) (hE : Lawful E) (s : Bytes) : replace E s [36, 48] = some s := by
  have hcomp : compile [36, 48] = some [.capture 0] := by decide
  by_cases hn : NoError E s
  · obtain ⟨ms, h1, h2⟩ := replace_scan E hE s [36, 48] hn _ hcomp
    rw [h2]
    have h3 : substitute s (filled s [.capture 0]) 0 ms = substitute s (fun m => slice s m.f m.t) 0 ms := by
      congr 1
      funext m
      simp [filled, codeOut, Hit.caps]
    rw [h3, substitute_self E hE s h1 0 (by omega) (by omega), slice_full]
  · -- the engine fails somewhere: either the scan does not get there, or the subject is returned
    have key : ∀ fuel off cp count, off ≤ s.length → cp ≤ off → (count = 0 → cp = 0) → s.length - off + 1 ≤ fuel →
        (subLoop E s [.capture 0] fuel off cp count = some none) ∨
        ∃ out cp' count', subLoop E s [.capture 0] fuel off cp count = some (some (out, cp', count')) ∧
          out ++ slice s cp' s.length = slice s cp s.length ∧ cp' ≤ s.length ∧ (count' = 0 → out = [] ∧ cp' = cp ∧ count = 0) := by
      intro fuel
      induction fuel with
      | zero => intro off cp count h1 _ _ h2; omega
      | succ fuel ih =>
        intro off cp count h1 hcp hz h2
        rcases exec_cases E hE s off h1 with h | h | ⟨m, h, k1, k2, k3⟩
        · exact .inr ⟨[], cp, count, by simp [subLoop, pcreExec_plain E s off h1, h], by simp, by omega, fun h => ⟨rfl, rfl, h⟩⟩
        · exact .inl (by simp [subLoop, pcreExec_plain E s off h1, h])
        · have hf : filled s [Code.capture 0] m = slice s m.f m.t := by simp [filled, codeOut, Hit.caps]
          have hj : slice s cp m.f ++ slice s m.f m.t = slice s cp m.t := slice_append _ _ _ _ (by omega) (by omega)
          rw [subLoop_hit E hE s _ fuel off cp count m h1 h, hf, hj]
          have rest : ∀ o, o ≤ s.length → m.t ≤ o → s.length - o + 1 ≤ fuel →
              (((subLoop E s [.capture 0] fuel o m.t (count + 1)).map fun x => x.map fun r => (slice s cp m.t ++ r.1, r.2)) =
                some none) ∨
              ∃ out cp' count', ((subLoop E s [.capture 0] fuel o m.t (count + 1)).map fun x => x.map fun r =>
                  (slice s cp m.t ++ r.1, r.2)) = some (some (out, cp', count')) ∧
                out ++ slice s cp' s.length = slice s cp s.length ∧ cp' ≤ s.length ∧
                (count' = 0 → out = [] ∧ cp' = cp ∧ count = 0) := by
            intro o ho ho2 ho3
            rcases ih o m.t (count + 1) ho ho2 (by omega) ho3 with e | ⟨out, cp', count', e, e2, e3, e4⟩
            · exact .inl (by rw [e]; rfl)
            · refine .inr ⟨slice s cp m.t ++ out, cp', count', by rw [e]; rfl, ?_, e3, ?_⟩
              · rw [List.append_assoc, e2, slice_append _ _ _ _ (by omega) (by omega)]
              · intro hz; have := e4 hz; omega
          split
          · split
            · refine .inr ⟨_, _, _, rfl, slice_append _ _ _ _ (by omega) (by omega), k3, by simp⟩
            · exact rest _ (by omega) (by omega) (by omega)
          · exact rest _ (by omega) (by omega) (by omega)
    unfold replace subHelper
    simp only [hcomp]
    rcases key (s.length + 2) 0 0 0 (by omega) (by omega) (by omega) (by omega) with e | ⟨out, cp', count', e, e2, e3, e4⟩
    · simp [e]
    · simp only [e, Option.map_some, Option.getD_some, Option.some.injEq]
      rw [slice_full] at e2
      split
      · rfl
      · split
        · exact e2
        · rename_i hc
          have : cp' = s.length := by omega
          rw [this, slice_nil, List.append_nil] at e2
          exact e2

theorem substitute_const (s rep : Bytes) : ∀ ms cp, substitute s (fun _ => rep) cp ms = List.intercalate rep (cut s cp ms) := by
  intro ms
  induction ms with
  | nil => intro cp; simp [substitute, cut]
  | cons m ms ih =>
    intro cp
    rw [substitute, ih, cut]
    have : cut s m.t ms ≠ [] := by
      intro h
      have := cut_length s ms m.t
      simp [h] at this
    obtain ⟨x, xs, hx⟩ := List.exists_cons_of_ne_nil this
    rw [hx]
    simp [List.intercalate, List.intersperse]

/-- A template without `$` is put in as it is: the result is the pieces of `split`, and the empty piece that `split` may
drop, joined by it. -/
theorem replace_join (E : Engine) (hE : Lawful E) (s rep : Bytes) (hn : NoError E s) (hr : 36 ∉ rep) :
    ∃ ps, split E s = some (dropLastEmpty ps) ∧ replace E s rep = some (List.intercalate rep ps) := by
  obtain ⟨ms, h1, h2⟩ := split_scan E hE s hn
  have hcomp : compile rep = some [.copy rep] := by simp [compile, hr]
  obtain ⟨ms', h3, h4⟩ := replace_scan E hE s rep hn _ hcomp
  obtain rfl := scan_det E s h1 _ h3
  refine ⟨_, h2, ?_⟩
  rw [h4, ← substitute_const]
  congr 2
  funext m
  simp [filled, codeOut]

/-! ## Templates -/

/-- `$` doubled. -/
def escape : Bytes → Bytes
  | [] => []
  | c :: r => if c = 36 then 36 :: 36 :: escape r else c :: escape r

theorem escape_takeWhile : ∀ r, (escape r).takeWhile (· ≠ 36) = r.takeWhile (· ≠ 36) := by
  intro r
  induction r with
  | nil => rfl
  | cons c r ih =>
    by_cases h : c = 36
    · simp [escape, h]
    · simp [escape, h] at ih ⊢; exact ih

theorem escape_dropWhile : ∀ r, (escape r).dropWhile (· ≠ 36) = escape (r.dropWhile (· ≠ 36)) := by
  intro r
  induction r with
  | nil => rfl
  | cons c r ih =>
    by_cases h : c = 36
    · simp [escape, h]
    · simp [escape, h] at ih ⊢; exact ih

theorem escape_length (r : Bytes) : r.length ≤ (escape r).length := by
  induction r with
  | nil => simp
  | cons c r ih => simp only [escape]; split <;> simp <;> omega

theorem compileLoop_escape : ∀ fuel r, (escape r).length < fuel → ∃ codes, compileLoop fuel (escape r) = some codes ∧
    ∀ s caps, (codes.map (codeOut s caps)).flatten = r := by
  intro fuel
  induction fuel with
  | zero => intro r h; omega
  | succ fuel ih =>
    intro r h
    cases r with
    | nil => exact ⟨[], rfl, by simp⟩
    | cons c r =>
      by_cases hc : c = 36
      · subst hc
        simp only [escape, if_true, List.length_cons] at h
        obtain ⟨codes, h1, h2⟩ := ih r (by omega)
        refine ⟨.copy [36] :: codes, ?_, ?_⟩
        · simp [escape, compileLoop, h1]
        · intro s caps; simp [codeOut, h2]
      · have hd : ((c :: r).dropWhile (· ≠ 36)).length ≤ r.length := by
          simp only [ne_eq, decide_not]
          rw [List.dropWhile_cons_of_pos (by simp [hc])]
          exact (List.dropWhile_suffix _).length_le
        have hlen : (escape ((c :: r).dropWhile (· ≠ 36))).length < fuel := by
          rw [← escape_dropWhile]
          have : (escape (c :: r)) = c :: escape r := by simp [escape, hc]
          rw [this] at h ⊢
          have : ((c :: escape r).dropWhile (· ≠ 36)).length ≤ (escape r).length := by
            simp only [ne_eq, decide_not]
            rw [List.dropWhile_cons_of_pos (by simp [hc])]
            exact (List.dropWhile_suffix _).length_le
          simp at h
          omega
        obtain ⟨codes, h1, h2⟩ := ih _ hlen
        refine ⟨.copy ((c :: r).takeWhile (· ≠ 36)) :: codes, ?_, ?_⟩
        · have e1 : escape (c :: r) = c :: escape r := by simp [escape, hc]
          rw [e1, compileLoop, if_neg hc, ← e1]
          simp only
          rw [escape_takeWhile, escape_dropWhile, h1]
          rfl
        · intro s caps
          simp only [List.map_cons, List.flatten_cons, codeOut, h2]
          exact List.takeWhile_append_dropWhile

/-- Doubling every `$` gives a template for any text: every match is replaced by exactly that text. -/
theorem replace_escape (E : Engine) (hE : Lawful E) (s r : Bytes) (hn : NoError E s) :
    ∃ ps, split E s = some (dropLastEmpty ps) ∧ replace E s (escape r) = some (List.intercalate r ps) := by
  by_cases h36 : 36 ∈ escape r
  · obtain ⟨codes, h1, h2⟩ := compileLoop_escape ((escape r).length + 1) r (by omega)
    have hcomp : compile (escape r) = some codes := by simp [compile, h36, h1]
    obtain ⟨ms, k1, k2⟩ := split_scan E hE s hn
    obtain ⟨ms', h3, h4⟩ := replace_scan E hE s _ hn _ hcomp
    obtain rfl := scan_det E s k1 _ h3
    refine ⟨_, k2, ?_⟩
    rw [h4, ← substitute_const]
    congr 2
    funext m
    exact h2 s m.caps
  · have : escape r = r := by
      have key : ∀ r, 36 ∉ escape r → escape r = r := by
        intro r
        induction r with
        | nil => intro _; rfl
        | cons c r ih =>
          intro h
          by_cases hc : c = 36
          · simp [escape, hc] at h
          · simp [escape, hc] at h ⊢
            exact ih h.2
      exact key r h36
    rw [this] at h36 ⊢
    exact replace_join E hE s r hn h36

/-- A piece of a template. -/
inductive Tok where
  | text (bs : Bytes)
  | dollar
  | group (ds : Bytes)
  | braced (ds : Bytes)

/-- How it is written: `$$`, `$12`, `${12}`. -/
def Tok.render : Tok → Bytes
  | .text bs => bs
  | .dollar => [36, 36]
  | .group ds => 36 :: ds
  | .braced ds => 36 :: 123 :: (ds ++ [125])

/-- The number that decimal digits write. -/
def number (ds : Bytes) : Nat := ds.foldl (fun n d => n * 10 + (d - 48)) 0

/-- What it stands for; a group that the pattern lacks or that took no part is the empty text. -/
def Tok.meaning (s : Bytes) (caps : Caps) : Tok → Bytes
  | .text bs => bs
  | .dollar => [36]
  | .group ds | .braced ds =>
    match caps[number ds]? with
    | some (some (f, t)) => slice s f t
    | _ => []

def DigitsOk (ds : Bytes) : Prop := ds ≠ [] ∧ (∀ d ∈ ds, isDigit d = true) ∧ number ds < 2 ^ 63

/-- Texts are not empty, have no `$`, and do not stand next to each other; a number without braces is not followed by a
digit. -/
def TokOk : List Tok → Prop
  | [] => True
  | .text bs :: ts => bs ≠ [] ∧ 36 ∉ bs ∧ (∀ b ts', ts ≠ .text b :: ts') ∧ TokOk ts
  | .dollar :: ts => TokOk ts
  | .group ds :: ts => DigitsOk ds ∧ (∀ c r b ts', ts = .text b :: ts' → b = c :: r → isDigit c = false) ∧ TokOk ts
  | .braced ds :: ts => DigitsOk ds ∧ TokOk ts

def renderAll (ts : List Tok) : Bytes := (ts.map Tok.render).flatten

theorem number_mono (ds : Bytes) : ∀ n, n ≤ ds.foldl (fun n d => n * 10 + (d - 48)) n := by
  induction ds with
  | nil => intro n; simp
  | cons d ds ih => intro n; simp only [List.foldl_cons]; have := ih (n * 10 + (d - 48)); omega

theorem digit_not (c : Nat) (h : isDigit c = true) : c ≠ 125 ∧ c ≠ 36 ∧ c ≠ 123 ∧ c ≠ 0 := by
  simp [isDigit] at h; omega

theorem scanName_digits (br : Bool) (ds : Bytes) : ∀ n len rest, (∀ d ∈ ds, isDigit d = true) →
    ds.foldl (fun n d => n * 10 + (d - 48)) n < 2 ^ 64 →
    scanName true br n len (ds ++ rest) =
      scanName true br (ds.foldl (fun n d => n * 10 + (d - 48)) n) (len + ds.length) rest := by
  induction ds with
  | nil => intros; rfl
  | cons d ds ih =>
    intro n len rest hd hlt
    have h1 := hd d (by simp)
    have h2 := digit_not d h1
    simp only [List.foldl_cons] at hlt ⊢
    have h3 : n * 10 + (d - 48) < 2 ^ 64 := Nat.lt_of_le_of_lt (number_mono ds _) hlt
    rw [List.cons_append, scanName, if_neg (by simp [h2.1]), if_pos rfl, if_pos h1, Nat.mod_eq_of_lt h3,
      ih _ _ _ (fun x hx => hd x (by simp [hx])) hlt]
    simp only [List.length_cons]
    congr 1
    omega

/-- A text that does not continue a number. -/
def NoDigit (r : Bytes) : Prop := r = [] ∨ ∃ c r', r = c :: r' ∧ isDigit c = false

theorem scanName_stop (n len : Nat) (r : Bytes) (h : NoDigit r) : scanName true false n len r = (n, len, false, r) := by
  rcases h with rfl | ⟨c, r', rfl, hc⟩
  · rfl
  · simp [scanName, hc]

theorem variable_group (ds rest : Bytes) (h : DigitsOk ds) (hr : NoDigit rest) :
    variableCode (ds ++ rest) = some (.capture (2 * number ds), rest) := by
  obtain ⟨h1, h2, h3⟩ := h
  obtain ⟨d, ds', rfl⟩ := List.exists_cons_of_ne_nil h1
  have hd := h2 d (by simp)
  have hn := digit_not d hd
  unfold variableCode
  have e1 : ((d :: ds') ++ rest).headD 0 = d := rfl
  have e2 : (d == 123) = false := by simp [hn.2.2.1]
  simp only [e1, e2, hd, Bool.false_and, Bool.false_eq_true, if_false, Bool.true_or]
  rw [scanName_digits false (d :: ds') 0 0 rest h2 (by unfold number at h3; omega), scanName_stop _ _ _ hr]
  simp only [Bool.false_eq_true, if_false, List.length_cons]
  have : ¬ (0 + (ds'.length + 1) = 0) := by omega
  simp only [this, if_false, Bool.not_true, Bool.false_eq_true]
  have hlt : 2 * number (d :: ds') < 2 ^ 64 := by omega
  rw [show (List.foldl (fun n d => n * 10 + (d - 48)) 0 (d :: ds')) = number (d :: ds') from rfl,
    Nat.mod_eq_of_lt hlt]

theorem variable_braced (ds rest : Bytes) (h : DigitsOk ds) :
    variableCode (123 :: (ds ++ 125 :: rest)) = some (.capture (2 * number ds), rest) := by
  obtain ⟨h1, h2, h3⟩ := h
  obtain ⟨d, ds', rfl⟩ := List.exists_cons_of_ne_nil h1
  have hd := h2 d (by simp)
  have hn := digit_not d hd
  unfold variableCode
  have e1 : (123 :: ((d :: ds') ++ 125 :: rest)).headD 0 = 123 := rfl
  have e3 : (((d :: ds') ++ 125 :: rest)).headD 0 = d := rfl
  have e2 : (d == 0) = false := by simp [hn.2.2.2]
  have e4 : isDigit 123 = false := by decide
  simp only [e1, beq_self_eq_true, if_true, List.tail_cons, e3, e2, Bool.and_false, Bool.false_eq_true, if_false, hd, e4,
    Bool.or_true]
  rw [scanName_digits true (d :: ds') 0 0 (125 :: rest) h2 (by unfold number at h3; omega)]
  have : scanName true true (List.foldl (fun n d => n * 10 + (d - 48)) 0 (d :: ds')) (0 + (d :: ds').length) (125 :: rest) =
      (number (d :: ds'), (d :: ds').length, false, rest) := by
    simp [scanName, number]
  rw [this]
  simp only [Bool.false_eq_true, if_false, List.length_cons]
  have : ¬ (ds'.length + 1 = 0) := by omega
  simp only [this, if_false, Bool.not_true, Bool.false_eq_true]
  have hlt : 2 * number (d :: ds') < 2 ^ 64 := by omega
  rw [Nat.mod_eq_of_lt hlt]

theorem capture_out (s : Bytes) (caps : Caps) (k : Nat) : codeOut s caps (.capture (2 * k)) =
    match caps[k]? with
    | some (some (f, t)) => slice s f t
    | _ => [] := by
  simp only [codeOut]
  have : 2 * k / 2 = k := by omega
  rw [this]
  by_cases h : k < caps.length
  · rw [if_pos (by omega)]
    cases caps[k]? with
    | none => rfl
    | some o => cases o <;> rfl
  · rw [if_neg (by omega), List.getElem?_eq_none (by omega)]

theorem render_noDigit (ts : List Tok) (h : TokOk ts)
    (h2 : ∀ c r b ts', ts = .text b :: ts' → b = c :: r → isDigit c = false) : NoDigit (renderAll ts) := by
  cases ts with
  | nil => exact .inl rfl
  | cons t ts =>
    cases t with
    | text bs =>
      obtain ⟨h1, _⟩ := h
      obtain ⟨c, r, rfl⟩ := List.exists_cons_of_ne_nil h1
      exact .inr ⟨c, r ++ renderAll ts, rfl, h2 c r _ ts rfl rfl⟩
    | dollar => exact .inr ⟨36, _, rfl, rfl⟩
    | group ds => exact .inr ⟨36, _, rfl, rfl⟩
    | braced ds => exact .inr ⟨36, _, rfl, rfl⟩

theorem render_head (ts : List Tok) (h : ∀ b ts', ts ≠ .text b :: ts') : renderAll ts = [] ∨ ∃ r, renderAll ts = 36 :: r := by
  cases ts with
  | nil => exact .inl rfl
  | cons t ts =>
    cases t with
    | text bs => exact absurd rfl (h bs ts)
    | dollar => exact .inr ⟨_, rfl⟩
    | group ds => exact .inr ⟨_, rfl⟩
    | braced ds => exact .inr ⟨_, rfl⟩

theorem compileLoop_render : ∀ ts fuel, TokOk ts → (renderAll ts).length < fuel →
    ∃ codes, compileLoop fuel (renderAll ts) = some codes ∧
      ∀ s caps, (codes.map (codeOut s caps)).flatten = (ts.map (Tok.meaning s caps)).flatten := by
  intro ts
  induction ts with
  | nil =>
    intro fuel _ h
    cases fuel with
    | zero => simp at h
    | succ fuel => exact ⟨[], rfl, by simp⟩
  | cons t ts ih =>
    intro fuel hok h
    have hr : renderAll (t :: ts) = t.render ++ renderAll ts := rfl
    cases fuel with
    | zero => omega
    | succ fuel =>
      cases t with
      | text bs =>
        obtain ⟨h1, h2, h3, h4⟩ := hok
        obtain ⟨c, r, rfl⟩ := List.exists_cons_of_ne_nil h1
        have hall : ∀ x ∈ c :: r, (decide (x ≠ 36)) = true := by
          intro x hx; simp; intro e; exact h2 (e ▸ hx)
        have htw : ((c :: r) ++ renderAll ts).takeWhile (· ≠ 36) = c :: r := by
          rw [List.takeWhile_append_of_pos hall]
          rcases render_head ts h3 with e | ⟨q, e⟩ <;> simp [e]
        have hdw : ((c :: r) ++ renderAll ts).dropWhile (· ≠ 36) = renderAll ts := by
          rw [List.dropWhile_append_of_pos hall]
          rcases render_head ts h3 with e | ⟨q, e⟩ <;> simp [e]
        rw [hr, Tok.render] at h
        simp at h
        obtain ⟨codes, k1, k2⟩ := ih fuel h4 (by omega)
        refine ⟨.copy (c :: r) :: codes, ?_, ?_⟩
        · rw [hr, Tok.render, List.cons_append, compileLoop, if_neg (by intro e; exact h2 (by simp [e])),
            ← List.cons_append]
          simp only
          rw [htw, hdw, k1]
          rfl
        · intro s caps; simp [codeOut, k2, Tok.meaning]
      | dollar =>
        rw [hr, Tok.render] at h
        simp at h
        obtain ⟨codes, k1, k2⟩ := ih fuel hok (by omega)
        refine ⟨.copy [36] :: codes, ?_, ?_⟩
        · rw [hr, Tok.render]
          simp [compileLoop, k1]
        · intro s caps; simp [codeOut, k2, Tok.meaning]
      | group ds =>
        obtain ⟨h1, h2, h3⟩ := hok
        rw [hr, Tok.render] at h
        simp at h
        obtain ⟨codes, k1, k2⟩ := ih fuel h3 (by omega)
        have hv := variable_group ds (renderAll ts) h1 (render_noDigit ts h3 h2)
        obtain ⟨d, ds', rfl⟩ := List.exists_cons_of_ne_nil h1.1
        have hn := digit_not d (h1.2.1 d (by simp))
        refine ⟨.capture (2 * number (d :: ds')) :: codes, ?_, ?_⟩
        · rw [hr, Tok.render, List.cons_append, compileLoop, if_pos rfl]
          have e1 : ((d :: ds') ++ renderAll ts).headD 0 = d := rfl
          rw [e1, if_neg hn.2.2.2, if_neg hn.2.1]
          simp only [hv, k1, Option.map_some]
        · intro s caps
          simp only [List.map_cons, List.flatten_cons, capture_out, k2, Tok.meaning]
      | braced ds =>
        obtain ⟨h1, h3⟩ := hok
        rw [hr, Tok.render] at h
        simp at h
        obtain ⟨codes, k1, k2⟩ := ih fuel h3 (by omega)
        have hv := variable_braced ds (renderAll ts) h1
        refine ⟨.capture (2 * number ds) :: codes, ?_, ?_⟩
        · rw [hr, Tok.render]
          have : (36 :: 123 :: (ds ++ [125])) ++ renderAll ts = 36 :: 123 :: (ds ++ 125 :: renderAll ts) := by simp
          rw [this, compileLoop, if_pos rfl]
          rw [if_neg (by simp), if_neg (by simp)]
          simp only [hv, k1, Option.map_some]
        · intro s caps
          simp only [List.map_cons, List.flatten_cons, capture_out, k2, Tok.meaning]

/-- A template in the notation means what it says: `$$` a dollar sign, `$n` and `${n}` group `n`. -/
theorem template_meaning (ts : List Tok) (h : TokOk ts) : ∃ codes, compile (renderAll ts) = some codes ∧
    ∀ s (m : Hit), filled s codes m = (ts.map (Tok.meaning s m.caps)).flatten := by
  unfold compile
  by_cases h36 : 36 ∈ renderAll ts
  · rw [if_pos h36]
    obtain ⟨codes, h1, h2⟩ := compileLoop_render ts _ h (Nat.lt_succ_self _)
    exact ⟨codes, h1, fun s m => h2 s m.caps⟩
  · rw [if_neg h36]
    refine ⟨_, rfl, ?_⟩
    intro s m
    simp only [filled, List.map_cons, List.map_nil, codeOut, List.flatten_cons, List.flatten_nil, List.append_nil, renderAll]
    congr 1
    apply List.map_congr_left
    intro t ht
    cases t with
    | text bs => rfl
    | dollar => exact absurd (List.mem_flatten.2 ⟨_, List.mem_map_of_mem ht, by simp [Tok.render]⟩) h36
    | group ds => exact absurd (List.mem_flatten.2 ⟨_, List.mem_map_of_mem ht, by simp [Tok.render]⟩) h36
    | braced ds => exact absurd (List.mem_flatten.2 ⟨_, List.mem_map_of_mem ht, by simp [Tok.render]⟩) h36

end Verif.Regex
