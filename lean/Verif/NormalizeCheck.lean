import Verif.NormalizeData

/-! The database of the repository satisfies what the proofs assume: every entry is checked by the
kernel. -/

namespace Verif.Normalize

/-- The database. -/
def ucd : DB where
  ccc c := match classT.get c with
    | none => 0
    | some v => v % 256
  qc c := match classT.get c with
    | none => 0
    | some v => v / 256
  dec c := match decT.get c with
    | none => (false, [])
    | some v => (Nat.beq (v % 2) 1, unpack 18 (v / 2))
  first c := find c nfcFirst
  last c := find c nfcLast
  pair f l := match pairT.get (f * 62 + l) with
    | none => 0
    | some v => v

/-! ## The checks -/

def canonB : List Nat → Bool
  | [] => true
  | a :: s => (match s with
    | [] => true
    | b :: _ => Nat.beq (ucd.ccc b) 0 || Nat.ble (ucd.ccc a) (ucd.ccc b)) && canonB s

theorem canonB_sound : ∀ s : List Nat, canonB s = true → Canon ucd s
  | [], _ => List.isChain_nil
  | [a], _ => List.isChain_singleton _
  | a :: b :: s, h => by
    rw [canonB, Bool.and_eq_true, Bool.or_eq_true, Nat.ble_eq] at h
    exact List.isChain_cons_cons.2 ⟨h.1.imp Nat.eq_of_beq_eq_true id, canonB_sound _ h.2⟩

/-- Of a character with a mapping. -/
def chkDecK (k : Bool) (c : Nat) : Bool :=
  height ucd k 5 c && Nat.ble (need ucd k 5 c) 20 &&
  (match bits ucd true k c with
    | 0 => match full ucd k c with
      | [] => false
      | a :: ds => (match ucd.ccc c with
        | 0 => Nat.beq (ucd.ccc a) 0 && ucd.last a == none && !isV a && !isT a && chain ucd a ds == some c &&
          canonB (a :: ds)
        | _ => Nat.beq a c && ds.isEmpty)
    | _ => true) &&
  (match bits ucd false k c with
    | 0 => leaf ucd k c
    | _ => true)

def chkDec (c : Nat) : Bool :=
  Nat.ble (full ucd false c).length 20 && (Nat.blt c 0x1100 || Nat.ble 0x1200 c) && chkDecK false c && chkDecK true c

theorem chkDec_all : decT.all (fun c _ => chkDec c) = true := by decide +kernel

/-- Of a range of characters with a class or quick check bits. -/
def chkRange (lo hi v : Nat) : Bool :=
  (Nat.blt hi 0xAC00 || Nat.blt 0xD7A3 lo || Nat.beq (v % 256) 0) &&
  (Nat.blt hi 0x1100 || Nat.ble 0x1200 lo || Nat.beq (v % 256) 0) &&
  [0, 2, 4, 6].all (fun sh =>
    match Nat.land (Nat.shiftRight (v / 256) sh) 3 with
    | 0 | 1 => true
    | 2 => (Nat.beq lo 0xAC00 && Nat.beq hi 0xD7A3) || below (fun d => !isS (lo + d) &&
        !leaf ucd (Nat.beq sh 2 || Nat.beq sh 6) (lo + d)) (hi + 1 - lo)
    | _ => false)

theorem chkRange_all : classT.all chkRange = true := by decide +kernel

theorem cover_all : classT.cover 0xAC00 0xD7A3 (256 * 10) = true := by decide +kernel

/-- Of the characters that begin a composite. -/
def chkFirst (e : Nat × Nat × Nat) : Bool :=
  (Nat.blt (e.1 + e.2.1) 0x1100 || Nat.ble 0x1200 e.1) &&
  (Nat.blt (e.1 + e.2.1) 0xAC00 || Nat.blt 0xD7A3 e.1) &&
  below (fun d => Nat.beq (ucd.ccc (e.1 + d)) 0) (e.2.1 + 1)

theorem chkFirst_all : nfcFirst.all chkFirst = true := by decide +kernel

/-- Of the characters that end one. -/
def chkLast (e : Nat × Nat × Nat) : Bool :=
  (Nat.blt (e.1 + e.2.1) 0x1100 || Nat.ble 0x1200 e.1) &&
  (Nat.blt (e.1 + e.2.1) 0xAC00 || Nat.blt 0xD7A3 e.1) &&
  below (fun d => !Nat.beq (bits ucd true false (e.1 + d)) 0 && !Nat.beq (bits ucd true true (e.1 + d)) 0) (e.2.1 + 1)

theorem chkLast_all : nfcLast.all chkLast = true := by decide +kernel

/-- Of the pairs of them. -/
def chkPair (a b f l : Nat) : Bool :=
  match ucd.pair f l with
  | 0 => true
  | p => (match ucd.dec p with
      | (false, [a', b']) => Nat.beq a' a && Nat.beq b' b
      | _ => false) && Nat.beq (ucd.ccc p) 0 && !isS p &&
    [false, true].all (fun k => Nat.beq (bits ucd true k a) 2 || !Nat.beq (bits ucd true k p) 2)

theorem chkPair_all : nfcFirst.all (fun e => below (fun i => nfcLast.all (fun e' => below (fun j =>
    chkPair (e.1 + i) (e'.1 + j) (e.2.2 + i) (e'.2.2 + j)) (e'.2.1 + 1))) (e.2.1 + 1)) = true := by
  decide +kernel

/-- Of vowels and trailing consonants. -/
theorem chkJamo : (below (fun i => !Nat.beq (bits ucd true false (0x1161 + i)) 0 &&
    !Nat.beq (bits ucd true true (0x1161 + i)) 0) 21 && below (fun i =>
    !Nat.beq (bits ucd true false (0x11A8 + i)) 0 && !Nat.beq (bits ucd true true (0x11A8 + i)) 0) 27) = true := by
  decide +kernel

end Verif.Normalize
