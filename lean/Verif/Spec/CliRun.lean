/-
What the operations of the command line tool are expected to do with an image, independently of the C code.
-/
import Verif.Spec.Call
import Verif.Spec.Geometry

namespace FlatCV.Spec

/-- An RGBA image as the tool handles it: positive `int` dimensions, all bytes present. -/
structure Picture (P : Plat) (w h : Nat) (d : List UInt8) : Prop where
  img : Img P w h 4 d
  w_int : w ≤ 2147483647
  h_int : h ≤ 2147483647

/-- On every heap the operation returns the `w' × h'` image `out` in a fresh block, or NULL because an allocation failed; in that
case the dimensions stay `w × h`. -/
def Gives (m : HM (Option (Buf UInt8) × Int × Int)) (w h : Nat) (w' h' : Nat) (out : List UInt8) : Prop :=
  ∀ hp, HOk m hp fun r hp' => match r.1 with
    | none => OutOfMemory hp hp' ∧ r.2 = ((w : Int), (h : Int))
    | some b => FreshResult hp hp' b ∧ b.cells = out.map some ∧ r.2 = ((w' : Int), (h' : Int))

/-- On every heap the operation fails: NULL, the dimensions unchanged, nothing allocated or released. -/
def Refuses (m : HM (Option (Buf UInt8) × Int × Int)) (w h : Nat) : Prop :=
  ∀ hp, m hp = .ok ((none, (w : Int), (h : Int)), hp)

/-- An image with its dimensions. -/
structure Sized where
  w : Nat
  h : Nat
  d : List UInt8

/-- One quarter turn clockwise: the dimensions are swapped. -/
def quarter (i : Sized) : Sized := ⟨i.h, i.w, rot90 i.w i.h i.d⟩

/-- `k` quarter turns clockwise. -/
def turned (i : Sized) : Nat → Sized
  | 0 => i
  | k + 1 => quarter (turned i k)

/-- The part of the axis from `o` on that a crop of length `n` shows: start and length. -/
def clampSpan (o : Int) (n len : Nat) : Nat × Nat :=
  let start := (max o 0).toNat
  (start, min n (len - start))

/-- The block holds an image of the reported size: the sides are at least 1, there are exactly `width * height * 4` bytes, and all
are initialised if there are at most `2^32`.  Sides of 2^31 and more are reported as negative `int`s. -/
def SizedRight (r : Option (Buf UInt8) × Int × Int) : Prop := ∀ b, r.1 = some b → ∃ ow oh : Nat, 0 < ow ∧ 0 < oh ∧ IsU32 ow ∧ IsU32 oh ∧
  r.2 = (i32OfU32 ow, i32OfU32 oh) ∧ b.cells.length = ow * oh * 4 ∧
  (ow * oh * 4 ≤ 4294967296 → ∃ out : List UInt8, b.cells = out.map some)

end FlatCV.Spec
