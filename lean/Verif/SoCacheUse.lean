import Verif.SoCacheMain
/-
Concrete cases of the theorems of `Verif.SoCacheMain`.
-/

namespace Verif.SoCache.Use

/-- `def make(n): def f(x: int) -> int: return x + n; return matx.script(f)` in `m.py`. -/
def f (n : Int) : Prog Int := ⟨⟨"/w/m.py".toList, 2, "f".toList, "def make(n): ...".toList⟩, [], [("n".toList, n)]⟩

/-- What the compiled function computes. -/
def gen (p : Prog Int) : Int → Int := fun x => x + (p.consts.map (·.2)).sum

/-- The name of the library. -/
example : soPath "/w/dso".toList [] [] (fun _ => "0123456789abcdef0123".toList) (f 1) =
    "/w/dso/libm_2_f_plugin_0123456789abcdef.so".toList := by decide +kernel

/-- `make(1)(10)` is 11, and so is `make(2)(10)`. -/
example (md5 : Str → Str) :
    (scripts (soPath [] [] [] md5) gen (fun _ => none) [f 1, f 2]).map (· 10) = [11, 11] ∧ gen (f 2) 10 = 12 := by
  rw [show f 2 = { f 1 with consts := (f 2).consts } from rfl, const_refuted]
  decide

/-- A function with a dependency in another file. -/
def g (t : Str) : Prog Int := ⟨⟨"/w/m.py".toList, 2, "f".toList, "from d import g".toList⟩,
  [⟨"/w/d.py".toList, 1, "g".toList, t⟩], []⟩

/-- A hash without collisions: the text itself, padded. -/
def md5 (s : Str) : Str := s.reverse ++ List.replicate 16 '0'

/-- Editing the file of a dependency changes the name. -/
example : soPath [] [] [] md5 (g "1".toList) ≠ soPath [] [] [] md5 (g "2".toList) := by
  refine edit_detected_partial (file := "/w/d.py".toList) (t := "1".toList)
    (t' := "2".toList) (fun s => by simp [md5]) (fun _ => by decide +kernel) (by decide) rfl
    ⟨_, List.mem_cons_of_mem _ (List.mem_singleton.2 rfl), rfl⟩ ?_ ?_ ?_
  · intro n hn hf
    simp only [g, List.mem_cons, List.not_mem_nil, or_false] at hn
    rcases hn with rfl | rfl
    · exact absurd hf (by decide)
    · rfl
  · intro n hn hf
    simp only [g, List.mem_cons, List.not_mem_nil, or_false] at hn
    rcases hn with rfl | rfl
    · exact absurd hf (by decide)
    · rfl
  · intro n hn n' hn' hf he
    simp only [g, List.mem_cons, List.not_mem_nil, or_false] at hn hn'
    rcases hn with rfl | rfl
    · rcases hn' with rfl | rfl
      · rfl
      · exact absurd he (by decide)
    · exact absurd rfl hf

/-- Two processes, the second one waits, finds the library and loads the code of the first. -/
example : ∃ t : St Nat, Run true (fun _ => []) (fun _ => 7) (fun _ => False) init t ∧
    t.pc 0 = .loaded (.full 7) ∧ t.pc 1 = .loaded (.full 7) ∧ t.builds [] = 1 := by
  have r1 : Run true (fun _ => []) (fun _ => 7) (fun _ => False) (init : St Nat) _ :=
    .one (.lock (s := init) 0 rfl rfl)
  have r2 := r1.step (.create 0 rfl fun _ => rfl)
  have r3 := r2.step (.done 0 rfl)
  have r4 := r3.step (.unlock 0 rfl)
  have r5 := r4.step (.lock 1 rfl rfl)
  have r6 := r5.step (.hit 1 rfl rfl (by simp [upd]))
  have r7 := r6.step (.load 0 rfl)
  have r8 := r7.step (.unlock 1 rfl)
  have r9 := r8.step (.load 1 rfl)
  exact ⟨_, r9, rfl, rfl, rfl⟩

/-- Process 0 is killed while compiling: process 1 loads a partial library. -/
example : ∃ t : St Nat, Run true (fun _ => []) (fun _ => 7) (fun _ => True) init t ∧ t.pc 1 = .loaded .part := by
  obtain ⟨t, h1, h2, -⟩ := killed_refuted (path := fun _ => []) (gen := fun _ => 7) (kill := fun _ => True)
    (p := 0) (q := 1) (by decide) rfl trivial
  exact ⟨t, h1, h2⟩

end Verif.SoCache.Use
