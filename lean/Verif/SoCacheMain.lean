import Verif.SoCacheProps
/-
The cache of compiled libraries: what holds for all processes and schedules, and what does not.
-/

namespace Verif.SoCache

section
variable {χ : Type} {path : Nat → Str} {gen : Nat → χ} {kill : PC χ → Prop}

/-- **One at a time.**  Whatever is killed and whether or not the cache is used, no two processes work on the same
library at the same time. -/
theorem exclusive {cache : Bool} {t : St χ} (hr : Run cache path gen kill init t) {p q : Nat}
    (hp : t.pc p = .compiling) (hq : t.pc q = .compiling ∨ t.pc q = .locked ∨ t.pc q = .built)
    (h : path p = path q) : p = q :=
  (Base.init.run hr).unique (by rw [hp]; rfl) (by rcases hq with h | h | h <;> rw [h] <;> rfl) h

/-- **Complete libraries.**  With the cache, and if no process is killed while its compiler is at work, every process
that loads a library loads a complete one, compiled by a process whose library has the same name. -/
theorem loads_full_partial (hk : ∀ c, kill c → c ≠ .compiling) {t : St χ} (hr : Run true path gen kill init t)
    {p : Nat} {f : File χ} (hp : t.pc p = .loaded f) : ∃ q, path q = path p ∧ f = .full (gen q) :=
  (Good.init.run Base.init hk hr).loaded p f hp

/-- **Own code.**  If moreover libraries of the same name have the same code, it loads its own code. -/
theorem loads_own_partial (hk : ∀ c, kill c → c ≠ .compiling) (hg : ∀ p q, path p = path q → gen p = gen q) {t : St χ}
    (hr : Run true path gen kill init t) {p : Nat} {f : File χ} (hp : t.pc p = .loaded f) : f = .full (gen p) := by
  obtain ⟨q, h1, h2⟩ := loads_full_partial hk hr hp
  rw [h2, hg q p h1]

/-- **Compiled once.**  With the cache, a complete library is never compiled again and never changes, whatever is
killed. -/
theorem compiled_once {s t : St χ} (hs : Run true path gen kill init s) (hr : Run true path gen kill s t) {x : Str}
    {c : χ} (hx : s.so x = .full c) : t.so x = .full c ∧ t.builds x = s.builds x :=
  full_run (Base.init.run hs) hr hx

/-- **No deadlock.**  In every state every process that is not dead can still get to load a library, whoever was
killed before. -/
theorem progress {cache : Bool} {s : St χ} (hs : Run cache path gen kill init s) (p : Nat) (hp : s.pc p ≠ .dead) :
    ∃ t f, Run cache path gen kill s t ∧ t.pc p = .loaded f :=
  can_load (Base.init.run hs) p hp

/-- **Finding.**  A process killed while its compiler is at work leaves a partial library; every other process that
compiles the same program loads it, then and later. -/
theorem killed_refuted {p q : Nat} (hpq : p ≠ q) (h : path p = path q) (hk : kill .compiling) :
    ∃ t : St χ, Run true path gen kill init t ∧ t.pc q = .loaded .part ∧ t.lock (path q) = none ∧
      ∀ r, t.pc r ≠ .compiling := by
  have r1 : Run true path gen kill init _ := .one (.lock (s := init) p rfl rfl)
  have r2 := r1.step (.create p (upd_same _ _ _) fun _ => rfl)
  have r3 := r2.crash p (by simpa only [upd_same] using hk)
  have hne : q ≠ p := fun e => hpq e.symm
  have r4 := r3.step (.lock q (by simp [crash, upd_ne _ _ hne, init]) (by simp [crash, h, upd_same]))
  have r5 := r4.step (.hit q (upd_same _ _ _) rfl (by simp [crash, h, upd_same]))
  have r6 := r5.step (.unlock q (upd_same _ _ _))
  have r7 := r6.step (.load q (upd_same _ _ _))
  refine ⟨_, r7, ?_, upd_same _ _ _, fun r => ?_⟩
  · simp [crash, h, upd_same]
  · by_cases h1 : r = q
    · simp [h1, upd_same]
    · by_cases h2 : r = p
      · subst h2; simp [upd_ne _ _ h1, crash, upd_same]
      · simp [upd_ne _ _ h1, upd_ne _ _ h2, crash, init]

/-- **Finding.**  Without the cache (MATX_USE_SO_CACHE=false) a process can load a library that another one is
writing: libraries are loaded after the lock is released. -/
theorem nocache_refuted {p q : Nat} (hpq : p ≠ q) (h : path p = path q) :
    ∃ t : St χ, Run false path gen (fun _ => False) init t ∧ t.pc p = .loaded .part := by
  have hne : q ≠ p := fun e => hpq e.symm
  have r1 : Run false path gen (fun _ => False) init _ := .one (.lock (s := init) p rfl rfl)
  have r2 := r1.step (.create p (upd_same _ _ _) (by simp))
  have r3 := r2.step (.done p (upd_same _ _ _))
  have r4 := r3.step (.unlock p (upd_same _ _ _))
  have r5 := r4.step (.lock q (by simp [upd_ne _ _ hne, init]) (by simp [h, upd_same]))
  have r6 := r5.step (.create q (upd_same _ _ _) (by simp))
  have r7 := r6.step (.load p (by simp [upd_ne _ _ hpq, upd_same]))
  exact ⟨_, r7, by simp [h, upd_same]⟩

end

section
variable {χ β : Type}

/-- **Edits are seen.**  If the files that take part are the same and the text of exactly one of them has changed,
the library has another name, unless the hashes collide. -/
theorem edit_detected_partial {dir sha version : Str} {md5 : Str → Str} (hm : ∀ s, 16 ≤ (md5 s).length) {p q : Prog β}
    (hc : cacheStr sha version p ≠ cacheStr sha version q →
      (md5 (cacheStr sha version p)).take 16 ≠ (md5 (cacheStr sha version q)).take 16)
    {file t t' : Str} (hne : t ≠ t') (hfiles : (p.main :: p.deps).map Node.file = (q.main :: q.deps).map Node.file)
    (hex : ∃ n ∈ p.main :: p.deps, n.file = file) (hp : ∀ n ∈ p.main :: p.deps, n.file = file → n.text = t)
    (hq : ∀ n ∈ q.main :: q.deps, n.file = file → n.text = t')
    (hsame : ∀ n ∈ p.main :: p.deps, ∀ n' ∈ q.main :: q.deps, n.file ≠ file → n.file = n'.file → n.text = n'.text) :
    soPath dir sha version md5 p ≠ soPath dir sha version md5 q := by
  intro h
  refine hc (fun he => ?_) (take_path hm h)
  rw [cacheStr, cacheStr] at he
  have he := List.append_cancel_right (List.append_cancel_right he)
  exact concat_ne (p.main :: p.deps) (q.main :: q.deps) hfiles hp hq hsame hex hne
    (by rw [List.flatMap_cons, List.flatMap_cons]; exact he)

/-- **Sequences of compilations.**  Starting with an empty directory, every call of `matx.script` gives the code of
its own program, if programs whose libraries have the same name have the same code. -/
theorem scripts_own_partial (path : Prog β → Str) (gen : Prog β → χ) (ps : List (Prog β))
    (hg : ∀ p ∈ ps, ∀ q ∈ ps, path p = path q → gen p = gen q) :
    scripts path gen (fun _ => none) ps = ps.map gen :=
  scripts_spec path gen ps _ (by simp) hg

/-- **Finding.**  The values of global and free variables are compiled into the code but are not part of the name:
compiling the same function with other values gives the code with the first ones, for every function. -/
theorem const_refuted (dir sha version : Str) (md5 : Str → Str) (gen : Prog β → χ) (p : Prog β)
    (consts : List (Str × β)) :
    scripts (soPath dir sha version md5) gen (fun _ => none) [p, { p with consts := consts }] = [gen p, gen p] := by
  have h : soPath dir sha version md5 { p with consts := consts } = soPath dir sha version md5 p := rfl
  simp only [scripts, build, h, upd_same]

/-- **Finding.**  Texts are joined without separators: moving text from the beginning of the file of the first
dependency to the end of the file of the function does not change the name. -/
theorem boundary_refuted (dir sha version : Str) (md5 : Str → Str) (m d : Node) (rest : List Node)
    (consts : List (Str × β)) {a b c : Str} (hm : m.text = a) (hd : d.text = b ++ c) :
    soPath dir sha version md5 ⟨{ m with text := a ++ b }, { d with text := c } :: rest, consts⟩ =
      soPath dir sha version md5 ⟨m, d :: rest, consts⟩ := by
  simp [soPath, cacheStr, hm, hd]

end

end Verif.SoCache
