/-
Canonical Huffman codes, RFC 1951, 3.2.2: a code is given by the lengths of the codes of its symbols; length 0 means that a symbol does
not occur.
-/
import Verif.Spec.Png

namespace FlatCV.Png

/-- How many symbols have a code of length `s`. -/
def lenCount (lens : List Nat) (s : Nat) : Nat := if s = 0 then 0 else lens.count s

/-- The first code of length `s` (step 2 in RFC 1951, 3.2.2). -/
def firstCode (lens : List Nat) : Nat → Nat
  | 0 => 0
  | s + 1 => 2 * (firstCode lens s + lenCount lens s)

/-- The code of symbol `i` (step 3): symbols with codes of the same length have consecutive codes. -/
def codeOf (lens : List Nat) (i : Nat) : Nat := firstCode lens (lens.getD i 0) + (lens.take i).count (lens.getD i 0)

/-- The code as bits; Huffman codes are packed with the most significant bit first (RFC 1951, 3.1.1). -/
def codeBits (lens : List Nat) (i : Nat) : List Bool :=
  ((List.range (lens.getD i 0)).map fun k => (codeOf lens i).testBit k).reverse

/-- There are not more codes of any length up to 15 than fit. -/
def Feasible (lens : List Nat) : Prop := ∀ s, s < 16 → lenCount lens s ≠ 0 → firstCode lens s + lenCount lens s ≤ 2 ^ s

instance (lens : List Nat) : Decidable (Feasible lens) := inferInstanceAs (Decidable (∀ s, s < 16 → _))

end FlatCV.Png
