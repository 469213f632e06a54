import Verif.StrCoreCost

/-! Concrete strings, and two things that do not hold. -/

namespace Verif.StrCore

/-- Short strings up to 4 characters, medium ones up to 8. -/
def P0 : Par Char := ⟨'\x00', 4, 8, fun n => n + 1, fun n => n + 2⟩

theorem good0 : Good P0 := by
  constructor
  · decide
  · decide
  · intro n
    exact Nat.le_succ n
  · intro n
    exact Nat.le_add_right n 2

/-- The values of all variables after a program. -/
def show' (r : Except Err (Heap Char × List (Core Char))) :
    Except Err (List (Except Err (List (Option Char)))) :=
  r.map fun (H, cs) => cs.map fun c => peek H c 0 c.size

instance {ε β : Type} [DecidableEq ε] [DecidableEq β] : DecidableEq (Except ε β)
  | .ok a, .ok b => if h : a = b then .isTrue (by rw [h]) else .isFalse (by simpa using h)
  | .error a, .error b => if h : a = b then .isTrue (by rw [h]) else .isFalse (by simpa using h)
  | .ok _, .error _ => .isFalse (by simp)
  | .error _, .ok _ => .isFalse (by simp)

def str (s : String) : Except Err (List (Option Char)) := .ok (s.toList.map some)

/-- Two variables share a long string; one grows, the other is shortened. -/
def prog1 : List (Op Char) :=
  [.new "abcdefghij".toList, .copy 0, .view 1, .appendPart 1 1 2 3, .setAt 2 0 'X', .popBack 0,
   .insertPart 0 4 2 0 2, .replacePart 1 1 2 1 0 4, .erase 2 3 100]

example : FineRun [] prog1 := by
  simp [FineRun, prog1, Fine, spec, val, part]

example : show' (run P0 Heap.none [] prog1) =
    .ok [str "abcdXbefghi", str "aabcddefghijcde", str "Xbc"] := by decide +kernel

example : specRun [] prog1 =
    ["abcdXbefghi".toList, "aabcddefghijcde".toList, "Xbc".toList] := by decide +kernel

/-- After the variables have gone no buffer is left. -/
example : (run P0 Heap.none [] (prog1 ++ [.del 0, .del 0, .del 0])).map (fun (H, cs) =>
    (cs.length, (List.range H.next).all fun p => (H.buf p).isNone)) = .ok (0, true) := by
  decide +kernel

/-- Three buffers have been used at least. -/
example : (run P0 Heap.none [] prog1).map (fun (H, _) => decide (3 ≤ H.next)) = .ok true := by
  decide +kernel

/-- Ten single characters: 15 moves, of at most 30. -/
example : (appendAll P0 Heap.none (empty P0) ("abcdefghij".toList.map ([·])) 0).map (·.2.2) =
    .ok 15 := by decide +kernel

/-- **C72 is false.** A short string moved out of an `Any` is not terminated: the cell after its
characters has not been written. -/
theorem unboxed_not_terminated_refuted :
    (run P0 Heap.none [] [.new ['a', 'b'], .unbox 0]).map (fun (H, cs) =>
      cs.map fun c => peek H c c.size 1) = .ok [.ok [some '\x00'], .ok [none]] := by
  decide +kernel

/-- Moving it as a string keeps the terminator. -/
example : (run P0 Heap.none [] [.new ['a', 'b'], .move 0]).map (fun (H, cs) =>
      cs.map fun c => peek H c c.size 1) = .ok [.ok [some '\x00'], .ok [some '\x00']] := by
  decide +kernel

/-- **C73 is false for `insert`.** Inserting the second character of `ab` in front of it gives
`aab`, because the characters move before the argument is read. -/
theorem insert_own_part_refuted :
    show' (run P0 Heap.none [] [.new ['a', 'b'], .insertPart 0 0 0 1 1]) = .ok [str "aab"] ∧
    specRun [] [Op.new ['a', 'b'], .insertPart 0 0 0 1 1] = ["bab".toList] := by
  decide +kernel

/-- **C73 is false for `insert`.** When the string has to grow, the argument is read from storage
that has been given up. -/
theorem insert_own_part_after_free_refuted :
    show' (run P0 Heap.none [] [.new "abcdef".toList, .insertPart 0 0 0 0 3]) = .error .dead := by
  decide +kernel

/-- `append`, `assign` and `replace` accept parts of the string itself. -/
theorem own_part_partial {α : Type} {P : Par α} (hg : Good P) (ops : List (Op α))
    (hf : FineRun [] ops) (i off n : Nat) (h : off + n ≤ (val (specRun [] ops) i).length)
    (op : Op α) (hop : op = .appendPart i i off n ∨ op = .assignPart i i off n ∨
      ∃ pos n1, pos ≤ (val (specRun [] ops) i).length ∧ op = .replacePart i pos n1 i off n) :
    ∃ H cs, run P Heap.none [] (ops ++ [op]) = .ok (H, cs) ∧
      ∀ l, (spec (specRun [] ops) op)[i]? = some l → ∃ c, cs[i]? = some c ∧
        peek H c 0 c.size = .ok (l.map some) := by
  have hfine : ∀ (ops : List (Op α)) (ls : List (List α)), FineRun ls ops →
      Fine (specRun ls ops) op → FineRun ls (ops ++ [op]) := by
    intro ops
    induction ops with
    | nil => exact fun ls _ h2 => ⟨h2, trivial⟩
    | cons o os ih => exact fun ls h1 h2 => ⟨h1.1, ih _ h1.2 h2⟩
  have h1 : Fine (specRun [] ops) op := by
    rcases hop with rfl | rfl | ⟨pos, n1, hp, rfl⟩
    · exact h
    · exact h
    · exact ⟨hp, h⟩
  obtain ⟨H, cs, e1, -, e2⟩ := strings_are_values hg _ (hfine ops [] hf h1)
  refine ⟨H, cs, e1, fun l hl => ?_⟩
  have : specRun [] (ops ++ [op]) = spec (specRun [] ops) op := by simp [specRun]
  obtain ⟨c, c1, -, c3⟩ := e2 i l (by rw [this]; exact hl)
  exact ⟨c, c1, c3⟩

example : show' (run P0 Heap.none [] [.new "abcdef".toList, .appendPart 0 0 1 4,
    .replacePart 0 0 1 0 2 3]) = .ok [str "cdebcdefbcde"] := by decide +kernel

end Verif.StrCore
