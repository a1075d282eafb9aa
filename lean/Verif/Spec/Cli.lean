/-
The command language: numbers, geometries, and the pieces of a pipeline.
-/
import Mathlib.Data.List.DropRight
import Verif.Core.Ieee

namespace FlatCV.Spec

/-- White space. -/
def blank (c : Char) : Bool := c ∈ [' ', '\t', '\n', '\x0b', '\x0c', '\r']

/-- A number in decimal notation. -/
def dec (n : Nat) : List Char := Nat.toDigits 10 n

/-- A number with an explicit sign. -/
def signed (z : Int) : List Char := (if z < 0 then '-' else '+') :: dec z.natAbs

/-- `s` is blanks, an optional sign and digits, denoting `n` or (if `neg`) `-n`. -/
def Numeral (s : List Char) (neg : Bool) (n : Nat) : Prop :=
  ∃ bl sg ds, s = bl ++ sg ++ ds ∧ (∀ c ∈ bl, blank c) ∧ sg ∈ (if neg then [['-']] else [[], ['+']]) ∧
    ds ≠ [] ∧ (∀ c ∈ ds, c.isDigit) ∧ Nat.ofDigitChars 10 ds 0 = n

/-- Without the blanks at both ends. -/
def strip (s : List Char) : List Char := (s.dropWhile blank).rdropWhile blank

/-- Without one pair of parentheses around the text. -/
def unparen (s : List Char) : List Char :=
  if s.head? = some '(' ∧ s.tail.getLast? = some ')' then strip s.tail.dropLast else s

/-- The pieces of a pipeline: what stands between commas, without surrounding blanks and one pair of parentheses; pieces with
nothing in them do not count. -/
def pieces (text : List Char) : List (List Char) :=
  (((text.splitOn ',').map strip).map unparen).filter (· ≠ [])

/-- The text of an argument list. -/
def joined (args : List (List Char)) : List Char := [' '].intercalate args

/-- The first word of a piece: everything before the first space. -/
def firstWord (piece : List Char) : List Char := piece.takeWhile (· ≠ ' ')

end FlatCV.Spec
