/-
Regions grown from markers on the pixel grid.  Nothing here refers to the model.
-/
import Verif.Spec.Image
import Verif.Core.Float

namespace FlatCV.Spec

/-- A pixel: column and row. -/
abbrev Pix := Nat × Nat

/-- The pixel lies in a `w × h` image. -/
def Inside (w h : Nat) (p : Pix) : Prop := p.1 < w ∧ p.2 < h

/-- The pixels share an edge. -/
def Adj4 (p q : Pix) : Prop :=
  (p.2 = q.2 ∧ (p.1 + 1 = q.1 ∨ q.1 + 1 = p.1)) ∨ (p.1 = q.1 ∧ (p.2 + 1 = q.2 ∨ q.2 + 1 = p.2))

/-- There is a 4-connected walk from `a` to `b` all of whose pixels after `a` satisfy `S`. -/
inductive Walk (S : Pix → Prop) (a : Pix) : Pix → Prop
  | refl : Walk S a a
  | step {b c : Pix} : Walk S a b → Adj4 b c → S c → Walk S a c

/-- The finite real coordinate `q` truncates to the natural number `n`. -/
def TruncatesTo (q : ℚ) (n : Nat) : Prop := -1 < q ∧ q < n + 1 ∧ ((n : ℚ) ≤ q ∨ n = 0)

/-- The marker lies on pixel `p`. -/
def MarkerOn (m : Dbl × Dbl) (p : Pix) : Prop :=
  ∃ x y, m = (.fin x, .fin y) ∧ TruncatesTo x p.1 ∧ TruncatesTo y p.2

/-- Marker number `k` lies on pixel `p`. -/
def MarkerAt (ms : List (Dbl × Dbl)) (k : Nat) (p : Pix) : Prop :=
  ∃ m, ms[k]? = some m ∧ MarkerOn m p

/-- All markers lie in the `w × h` image. -/
def MarkersInside (w h : Nat) (ms : List (Dbl × Dbl)) : Prop :=
  ∀ m ∈ ms, ∃ p, MarkerOn m p ∧ Inside w h p

/-- Elevation of a pixel of the gray image `d`. -/
def elev (w : Nat) (d : List UInt8) (p : Pix) : Nat := (px w 1 d p.1 p.2 0).toNat

/-- Colour of region `k` (channels R, G, B): ten distinct colours, then gray. -/
def regionColour (k : Nat) : UInt8 × UInt8 × UInt8 :=
  match k with
  | 0 => (255, 0, 0)
  | 1 => (0, 255, 0)
  | 2 => (0, 0, 255)
  | 3 => (255, 255, 0)
  | 4 => (255, 0, 255)
  | 5 => (0, 255, 255)
  | 6 => (255, 128, 0)
  | 7 => (128, 0, 255)
  | 8 => (255, 192, 203)
  | _ => (128, 128, 128)

/-- Channel `c` of a pixel in region `r`; `none` is black. -/
def regionByte (r : Option Nat) (c : Nat) : UInt8 :=
  if c = 3 then 255
  else match r with
    | none => 0
    | some k => if c = 0 then (regionColour k).1 else if c = 1 then (regionColour k).2.1
      else (regionColour k).2.2

/-- The RGBA picture of a labelling. -/
def paintRegions (w h : Nat) (L : Pix → Option Nat) : List UInt8 :=
  mkImg w h 4 fun x y c => regionByte (L (x, y)) c

/-- `L` is a partition of (part of) the image into regions grown from the markers: each marker
pixel belongs to a marker lying on it, and every pixel of region `k` is joined to a pixel
carrying marker `k` by a walk inside the region. -/
structure Regions (w h : Nat) (ms : List (Dbl × Dbl)) (L : Pix → Option Nat) : Prop where
  markers : ∀ k p, MarkerAt ms k p → Inside w h p → ∃ k', L p = some k' ∧ MarkerAt ms k' p
  joined : ∀ p k, Inside w h p → L p = some k → ∃ a, MarkerAt ms k a ∧ Inside w h a ∧ L a = some k ∧
    Walk (fun q => Inside w h q ∧ L q = some k) a p

/-- Water rising to level `l` reaches `p` from `a`. -/
def Reaches (w h : Nat) (d : List UInt8) (l : Nat) (a p : Pix) : Prop :=
  Walk (fun q => Inside w h q ∧ elev w d q ≤ l) a p

/-- Every pixel is flooded at the lowest possible level, from the marker of its own region and
through its own region. -/
def FloodsInOrder (w h : Nat) (d : List UInt8) (ms : List (Dbl × Dbl)) (L : Pix → Option Nat) :
    Prop :=
  ∀ p, Inside w h p → ∃ k a l, L p = some k ∧ MarkerAt ms k a ∧ Inside w h a ∧ L a = some k ∧
    Walk (fun q => Inside w h q ∧ L q = some k ∧ elev w d q ≤ l) a p ∧
    ∀ k' a' l', MarkerAt ms k' a' → Inside w h a' → Reaches w h d l' a' p → l ≤ l'

/-- Nothing is left to grow: an uncoloured pixel with a coloured neighbour touches two
different regions. -/
def BoundaryOnly (w h : Nat) (L : Pix → Option Nat) : Prop :=
  ∀ p q k, Inside w h p → Inside w h q → Adj4 q p → L p = none → L q = some k →
    ∃ q' k', Inside w h q' ∧ Adj4 q' p ∧ L q' = some k' ∧ k' ≠ k

/-- Pixels of different regions are never adjacent. -/
def Separated (w h : Nat) (L : Pix → Option Nat) : Prop :=
  ∀ p q j k, Inside w h p → Inside w h q → Adj4 p q → L p = some j → L q = some k → j = k

end FlatCV.Spec
