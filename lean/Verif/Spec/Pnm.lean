/-
PGM and PPM files with binary data, as defined by the Netpbm manual (formats `pgm` and `ppm`), one image per file.
-/

namespace FlatCV.Pnm

/-- Blank, tab, line feed, vertical tab, form feed or carriage return. -/
def White (b : UInt8) : Prop := b = 32 ∨ (9 ≤ b ∧ b ≤ 13)

/-- What may stand between the parts of the header: white space, and comments from `#` to the end of the line. -/
inductive Gap : List UInt8 → Prop
  | none : Gap []
  | white {b : UInt8} {l : List UInt8} : White b → Gap l → Gap (b :: l)
  | comment {text : List UInt8} {nl : UInt8} {l : List UInt8} : (∀ b ∈ text, b ≠ 10 ∧ b ≠ 13) → nl = 10 ∨ nl = 13 → Gap l → Gap (35 :: (text ++ nl :: l))

/-- `t` is `v` in decimal digits. -/
def Decimal (t : List UInt8) (v : Nat) : Prop :=
  t ≠ [] ∧ (∀ b ∈ t, 48 ≤ b ∧ b ≤ 57) ∧ v = t.foldl (fun v b => v * 10 + (b.toNat - 48)) 0

/-- Bytes per sample. -/
def sampleSize (maxv : Nat) : Nat := if maxv < 256 then 1 else 2

/-- `file` is a PGM (`n = 1`) or PPM (`n = 3`) file of `w` × `h` pixels with samples up to `maxv`; the samples are the bytes `px`. -/
structure IsPnm (file : List UInt8) (n w h maxv : Nat) (px : List UInt8) : Prop where
  parts : ∃ magic g1 tw g2 th g3 tm sp, file = [80, magic] ++ g1 ++ tw ++ g2 ++ th ++ g3 ++ tm ++ [sp] ++ px ∧ White sp ∧
    Gap g1 ∧ Gap g2 ∧ Gap g3 ∧ g1 ≠ [] ∧ g2 ≠ [] ∧ g3 ≠ [] ∧ Decimal tw w ∧ Decimal th h ∧ Decimal tm maxv ∧
    ((magic = 53 ∧ n = 1) ∨ (magic = 54 ∧ n = 3))
  width : 1 ≤ w
  height : 1 ≤ h
  maximum : 1 ≤ maxv ∧ maxv ≤ 65535
  size : px.length = n * w * h * sampleSize maxv

/-- The `k`-th sample: one byte, or two with the more significant one first. -/
def sample (maxv : Nat) (px : List UInt8) (k : Nat) : Nat :=
  if maxv < 256 then (px.getD k 0).toNat else (px.getD (2 * k) 0).toNat * 256 + (px.getD (2 * k + 1) 0).toNat

/-- The sample of channel `c` (red, green, blue) of pixel `p`. -/
def channel (n maxv : Nat) (px : List UInt8) (p c : Nat) : Nat := sample maxv px (if n = 3 then p * 3 + c else p)

end FlatCV.Pnm
