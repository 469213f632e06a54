import Verif.SaveLoadMain
/-
Concrete cases of the theorems of `Verif.SaveLoadMain`.
-/

namespace Verif.SaveLoad.Use

/-- A dictionary with a resource file, and an operator that uses it. -/
def H : Nat → Op Nat
  | 0 => ⟨"Dict".toList, "Dict_0".toList, 7, "/a/".toList, ["v/words.txt".toList, []], []⟩
  | 1 => ⟨"JitOp".toList, "op".toList, 3, [], [], [0]⟩
  | _ => ⟨"X".toList, [], 0, [], [], []⟩

def fs : FS String := fun p => if p = "/a/v/words.txt".toList then some ("one two", 5) else none

def nodes : List (GNode String) := [⟨1, ["x"], [("y", true)]⟩]

theorem reach {i : Nat} (h : Reach H (nodes.map GNode.op) i) : i = 0 ∨ i = 1 := by
  induction h with
  | root h => simp [nodes] at h; exact .inr h
  | sub _ hj ih =>
    rcases ih with rfl | rfl
    · simp [H] at hj
    · simp [H] at hj; exact .inl hj

theorem fine : Fine H fs "/out".toList nodes ["y"] (fun _ => none) where
  older i hi j hj := by
    rcases reach hi with rfl | rfl
    · simp [H] at hj
    · simp [H] at hj; omega
  keys i j hi hj h := by
    rcases reach hi with rfl | rfl <;> rcases reach hj with rfl | rfl <;> first | rfl | exact absurd h (by decide)
  files := by
    have hf : ∀ {i f}, Reach H (nodes.map GNode.op) i → f ∈ (H i).files → f ≠ [] → i = 0 ∧ f = "v/words.txt".toList := by
      intro i f hi hf hn
      rcases reach hi with rfl | rfl
      · simp only [H, List.mem_cons, List.not_mem_nil, or_false] at hf
        rcases hf with h | h
        · exact ⟨rfl, h⟩
        · exact absurd h hn
      · simp [H] at hf
    refine ⟨fun i hi f h hn => ?_, fun i j hi hj ⟨f, h, hn⟩ ⟨g, k, kn⟩ _ => ?_, fun i hi f h g k hn kn _ => ?_,
      fun i j hi hj f h g k hn kn => ?_, fun i hi f h hn c t c' t' _ h2 => ?_⟩
    · obtain ⟨rfl, rfl⟩ := hf hi h hn
      exact ⟨("one two", 5), by decide⟩
    · rw [(hf hi h hn).1, (hf hj k kn).1]
    · rw [(hf hi h hn).2, (hf hi k kn).2]
    · obtain ⟨rfl, rfl⟩ := hf hi h hn
      obtain ⟨rfl, rfl⟩ := hf hj k kn
      decide
    · obtain ⟨rfl, rfl⟩ := hf hi h hn
      rw [show fs (dst "/out".toList (H 0) "v/words.txt".toList) = none from by decide] at h2
      simp at h2
  exported k hk := by
    simp at hk
    exact ⟨⟨1, ["x"], [("y", true)]⟩, by simp [nodes], by simp [hk]⟩
  some := by simp
  cache _ _ := .inl rfl

/-- What is saved: the dictionary first, its file under its own directory, the operator refers to it by name. -/
example : (saveOps H 9 "/out".toList 2 fs [1]).map (fun s => s.recs.map fun r => r.files.map String.ofList) =
    some [["Dict_0/words.txt", ""], []] := by decide +kernel

example : (saveOps H 9 "/out".toList 2 fs [1]).map (fun s => s.recs.map fun r => r.refs.map fun k => String.ofList k.2) =
    some [[], ["Dict_0"]] := by decide +kernel

example : (saveOps H 9 "/out".toList 2 fs [1]).map (fun s => s.fs "/out/Dict_0/words.txt".toList) =
    some (some ("one two", 9)) := by decide +kernel

/-- The session is loaded with the content of the file, from a folder that has only the copy. -/
example (sem : Beh Nat String → List Nat → Except Unit Nat) :
    ∃ cfg fs' c', save H 9 "/out".toList 2 fs nodes ["y"] [] = some (cfg, fs') ∧
      load (fun c _ => decide (c = "JitObject".toList)) sem fs' "/out".toList (fun _ => none) cfg =
        some ([mkNode sem "JitOp".toList ["x"] ["y"]
          (.node "JitOp".toList 3 [] [.node "Dict".toList 7 [some "one two", none] []])], ["y"], [], c') := by
  obtain ⟨cfg, fs', ns, c', h1, h2, h3, -⟩ := load_save_partial (fun c _ => decide (c = "JitObject".toList)) sem fine 9 (fuel := 2) (by simp [nodes]) []
  refine ⟨cfg, fs', c', h1, ?_⟩
  rw [h2]
  have : ns = [mkNode sem "JitOp".toList ["x"] ["y"]
          (.node "JitOp".toList 3 [] [.node "Dict".toList 7 [some "one two", none] []])] :=
    (Option.some.inj h3).symm
  rw [this]

/-- `vocab/a.txt` and `rules/a.txt` have the same base name. -/
example : baseName "vocab/a.txt".toList = baseName "rules/a.txt".toList ∧
    "vocab/a.txt".toList ≠ "rules/a.txt".toList := by decide

/-- Two models made by two processes: the second one loaded uses the operator of the first one. -/
example (sem : Beh Nat String → List Nat → Except Unit Nat) (fs : FS String) :
    ∃ cfg cfg' g,
      save (fun _ => (⟨"JitObject".toList, "Model_1_0".toList, 1, [], [], []⟩ : Op Nat)) 0 "/a".toList 1 fs
        [⟨0, ["x"], [("y", true)]⟩] ["y"] [] = some (cfg, fs) ∧
      save (fun _ => (⟨"JitObject".toList, "Model_1_0".toList, 2, [], [], []⟩ : Op Nat)) 0 "/b".toList 1 fs
        [⟨0, ["x"], [("y", true)]⟩] ["y"] [] = some (cfg', fs) ∧
      load (fun _ _ => true) sem fs "/a".toList (fun _ => none) cfg =
        some ([mkNode sem "JitObject".toList ["x"] ["y"] (.node "JitObject".toList 1 [] [])], ["y"], [], g) ∧
      load (fun _ _ => true) sem fs "/b".toList g cfg' =
        some ([mkNode sem "JitObject".toList ["x"] ["y"] (.node "JitObject".toList 1 [] [])], ["y"], [], g) :=
  second_model_refuted (fun _ _ => true) sem (⟨"JitObject".toList, "Model_1_0".toList, 1, [], [], []⟩ : Op Nat)
    (⟨"JitObject".toList, "Model_1_0".toList, 2, [], [], []⟩ : Op Nat) ⟨rfl, rfl⟩ ⟨rfl, rfl⟩ ⟨rfl, rfl⟩ rfl fs _ _ 0
    "y" ["x"] []

end Verif.SaveLoad.Use
