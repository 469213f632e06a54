import Verif.Cedar
import Verif.Utf8
import Verif.Slice
/-
`matx.Trie` on `str`: keys and texts are encoded in UTF-8.

Source: `src/runtime/algorithm/trie_private.cc`; a `str` is the list of its code points.
-/
namespace Verif.Cedar

/-- `UTF8Encode`. -/
def bytes (w : List Nat) : List Nat := (Utf8.encode w).map UInt8.toNat

/-- `TrieNode::Update` on `str`, trie_private.cc 60-63, for every pair of a list. -/
def uBuild (s : St) (ops : List (List Nat × Int)) : Option St :=
  build s (ops.map (fun p => (bytes p.1, p.2)))

/-- `w.substr(slice_index_correction(pos, w.size()))`. -/
def from' (w : List Nat) (pos : Int) : List Nat :=
  w.drop (Slice.sliceIndexCorrection pos w.length).toNat

/-- `prefix_search` on `str`, trie_private.cc 88-92 and 173-178. -/
def uPrefixSearch (s : St) (w : List Nat) (pos : Int) : Option (Nat × Int) :=
  let w := from' w pos
  match prefixSearch s (bytes w) with
  | none => none
  | some (n, v) =>
    match Utf8.countUnitSize ((Utf8.encode w).take n) with
    | none => none
    | some k => some (k, v)

/-- `OneCharLen`, utf8_util.h 32-36. -/
def charLen (u : UInt8) : Nat :=
  if u.toNat / 16 < 12 then 1 else if u.toNat / 16 < 14 then 2 else if u.toNat / 16 = 14 then 3 else 4

/-- `len2count`, trie_private.cc 116-127, as the list of its entries. -/
def len2count (length count : Nat) : List UInt8 → List (Nat × Nat)
  | [] => []
  | u :: r => (length + charLen u, count + 1) :: len2count (length + charLen u) (count + 1) (r.drop (charLen u - 1))
termination_by l => l.length
decreasing_by simp only [List.length_drop, List.length_cons]; omega

/-- `prefix_search_all` on `str`, trie_private.cc 112-143 and 200-208. -/
def uPrefixSearchAll (s : St) (w : List Nat) (pos : Int) : Option (List (Nat × Int)) :=
  let w := from' w pos
  match prefixSearchAll s (bytes w) with
  | none => none
  | some r =>
    let t := len2count 0 0 (Utf8.encode w)
    some (r.filterMap (fun p => (t.lookup p.1).map (fun k => (k, p.2))))

end Verif.Cedar
