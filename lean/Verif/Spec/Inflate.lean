/-
DEFLATE (RFC 1951) with all three kinds of blocks, and zlib (RFC 1950), as functions on lists of bits and bytes.
-/
import Verif.Spec.Huffman

namespace FlatCV.Png

/-- The symbol whose code comes next. -/
def readCode (lens : List Nat) (bs : List Bool) : Option (Nat × List Bool) :=
  ((List.range lens.length).find? fun i => decide (lens.getD i 0 ≠ 0) && (codeBits lens i).isPrefixOf bs).map fun i =>
    (i, bs.drop (lens.getD i 0))

/-- RFC 1951, 3.2.5: a distance code with its extra bits. -/
def readDistWith (dist : List Nat) (bs : List Bool) : Option (Nat × List Bool) :=
  (readCode dist bs).bind fun s => distCodes[s.1]?.bind fun c => (takeNum c.2 s.2).map fun r => (c.1 + r.1, r.2)

/-- RFC 1951, 3.2.3: the next symbol of a block with the given codes. -/
def readSymWith (lit dist : List Nat) (bs : List Bool) : Option (Sym × List Bool) :=
  (readCode lit bs).bind fun s =>
    if s.1 < 256 then some (.literal (UInt8.ofNat s.1), s.2)
    else if s.1 = 256 then some (.stop, s.2)
    else (readLength s.1 s.2).bind fun l => (readDistWith dist l.2).map fun d => (.copy d.1 l.1, d.2)

/-- The symbols of a block, after the output `out`; what follows the block and the output. -/
def inflateWith (lit dist : List Nat) : Nat → List Bool → List UInt8 → Option (List Bool × List UInt8)
  | 0, _, _ => none
  | f + 1, bs, out =>
    (readSymWith lit dist bs).bind fun s =>
      match s.1 with
      | .literal b => inflateWith lit dist f s.2 (out ++ [b])
      | .stop => some (s.2, out)
      | .copy d n => (copyBack d n out).bind fun out => inflateWith lit dist f s.2 out

/-- RFC 1951, 3.2.6. -/
def fixedLit : List Nat := (List.range 288).map fun i => if i < 144 then 8 else if i < 256 then 9 else if i < 280 then 7 else 8

/-- RFC 1951, 3.2.6: distances have codes of five bits. -/
def fixedDist : List Nat := List.replicate 32 5

/-- `n` numbers of `w` bits. -/
def readNums (w : Nat) : Nat → List Bool → Option (List Nat × List Bool)
  | 0, bs => some ([], bs)
  | n + 1, bs => (takeNum w bs).bind fun v => (readNums w n v.2).map fun l => (v.1 :: l.1, l.2)

/-- RFC 1951, 3.2.7: the order of the lengths of the codes for lengths. -/
def clOrder : List Nat := [16, 17, 18, 0, 8, 7, 9, 6, 10, 5, 11, 4, 12, 3, 13, 2, 14, 1, 15]

/-- RFC 1951, 3.2.7: the symbols of the code for lengths; what is repeated how often. -/
def readRun (cl : List Nat) (last : Option Nat) (bs : List Bool) : Option ((Nat × Nat) × List Bool) :=
  (readCode cl bs).bind fun s =>
    if s.1 < 16 then some ((s.1, 1), s.2)
    else if s.1 = 16 then last.bind fun v => (takeNum 2 s.2).map fun k => ((v, k.1 + 3), k.2)
    else if s.1 = 17 then (takeNum 3 s.2).map fun k => ((0, k.1 + 3), k.2)
    else if s.1 = 18 then (takeNum 7 s.2).map fun k => ((0, k.1 + 11), k.2)
    else none

/-- The lengths of `total` codes, `acc` being those so far. -/
def readLens (cl : List Nat) (total : Nat) : Nat → List Bool → List Nat → Option (List Nat × List Bool)
  | 0, _, _ => none
  | f + 1, bs, acc =>
    if total ≤ acc.length then some (acc, bs)
    else (readRun cl acc.getLast? bs).bind fun r =>
      if acc.length + r.1.2 ≤ total then readLens cl total f r.2 (acc ++ List.replicate r.1.2 r.1.1) else none

/-- RFC 1951, 3.2.7: the two codes of a block with dynamic codes. -/
def readCodes (bs : List Bool) : Option ((List Nat × List Nat) × List Bool) :=
  (takeNum 5 bs).bind fun hlit => (takeNum 5 hlit.2).bind fun hdist => (takeNum 4 hdist.2).bind fun hclen =>
    (readNums 3 (hclen.1 + 4) hclen.2).bind fun nums =>
      let cl := (List.range 19).map fun s => nums.1.getD (clOrder.idxOf s) 0
      if Feasible cl then
        (readLens cl (hlit.1 + 257 + (hdist.1 + 1)) (hlit.1 + 257 + (hdist.1 + 1) + 1) nums.2 []).bind fun lens =>
          let lit := lens.1.take (hlit.1 + 257)
          let dist := lens.1.drop (hlit.1 + 257)
          if Feasible lit ∧ Feasible dist then some ((lit, dist), lens.2) else none
      else none

/-- RFC 1951, 3.2.3: a block of the given type. -/
def inflateBlock (type : Nat) (bs : List Bool) (out : List UInt8) : Option (List Bool × List UInt8) :=
  if type = 0 then inflateStored bs out
  else if type = 1 then inflateWith fixedLit fixedDist (bs.length + 1) bs out
  else if type = 2 then (readCodes bs).bind fun c => inflateWith c.1.1 c.1.2 (c.2.length + 1) c.2 out
  else none

/-- The blocks up to the final one. -/
def inflateAll : Nat → List Bool → List UInt8 → Option (List Bool × List UInt8)
  | 0, _, _ => none
  | f + 1, bs, out =>
    (takeNum 1 bs).bind fun final => (takeNum 2 final.2).bind fun type => (inflateBlock type.1 type.2 out).bind fun r =>
      if final.1 = 1 then some r else inflateAll f r.1 r.2

/-- RFC 1950, 2.2: the header of a zlib stream. -/
def zlibHeader (cmf flg : UInt8) : Prop :=
  cmf.toNat % 16 = 8 ∧ cmf.toNat / 16 ≤ 7 ∧ (cmf.toNat * 256 + flg.toNat) % 31 = 0 ∧ flg.toNat.testBit 5 = false

instance (cmf flg : UInt8) : Decidable (zlibHeader cmf flg) := inferInstanceAs (Decidable (_ ∧ _))

/-- RFC 1950: two bytes of header, the compressed data, the checksum of the original data. -/
def zlibDecode (l : List UInt8) : Option (List UInt8) :=
  match l with
  | cmf :: flg :: body =>
    if zlibHeader cmf flg then
      (inflateAll ((bitsOf body).length + 1) (bitsOf body) []).bind fun r =>
        if r.1.drop (r.1.length % 8) = bitsOf (adler32 r.2) then some r.2 else none
    else none
  | _ => none

end FlatCV.Png
