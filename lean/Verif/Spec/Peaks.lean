/-
Corner peaks: what a qualified local maximum is and which sets of points may be returned.
Nothing here refers to the model.
-/
import Verif.Spec.Image
import Verif.Core.Float

namespace FlatCV.Spec

/-- Corner response of a pixel (first channel of the two-channel response image). -/
def resp (w : Nat) (d : List UInt8) (p : Nat × Nat) : UInt8 := px w 2 d p.1 p.2 0

/-- Roundness of a pixel (second channel). -/
def roundness (w : Nat) (d : List UInt8) (p : Nat × Nat) : UInt8 := px w 2 d p.1 p.2 1

/-- The byte as a fraction of 255, in `double`. -/
def unitOf (v : UInt8) : ℚ := Fmt.b64.rnd ((v.toNat : ℚ) / 255)

/-- An interior pixel whose response is not zero and not smaller than that of its eight
neighbours, and which exceeds both thresholds. -/
structure Qualified (w h : Nat) (d : List UInt8) (acc rou : ℚ) (p : Nat × Nat) : Prop where
  left : 0 < p.1
  right : p.1 + 1 < w
  top : 0 < p.2
  bottom : p.2 + 1 < h
  accurate : acc < unitOf (resp w d p)
  round : rou < unitOf (roundness w d p)
  positive : resp w d p ≠ 0
  maximal : ∀ q : Nat × Nat, q.1 ≤ p.1 + 1 → p.1 ≤ q.1 + 1 → q.2 ≤ p.2 + 1 → p.2 ≤ q.2 + 1 →
    resp w d q ≤ resp w d p

/-- Squared distance of two pixels. -/
def dist2 (p q : Nat × Nat) : Nat :=
  ((p.1 : Int) - q.1).natAbs ^ 2 + ((p.2 : Int) - q.2).natAbs ^ 2

/-- Reading order. -/
def Before (p q : Nat × Nat) : Prop := p.2 < q.2 ∨ (p.2 = q.2 ∧ p.1 < q.1)

/-- The points are qualified maxima in reading order. -/
def AllQualified (w h : Nat) (d : List UInt8) (acc rou : ℚ) (ps : List (Nat × Nat)) : Prop :=
  (∀ p ∈ ps, Qualified w h d acc rou p) ∧ ps.Pairwise Before

/-- Any two points are at least `m` apart. -/
def Apart (m : Nat) (ps : List (Nat × Nat)) : Prop := ps.Pairwise fun p q => m * m ≤ dist2 p q

/-- A qualified maximum that is missing is closer than `m` to another one which is at least as
strong; and not all are missing. -/
def SuppressedFairly (w h : Nat) (d : List UInt8) (acc rou : ℚ) (m : Nat)
    (ps : List (Nat × Nat)) : Prop :=
  (∀ p, Qualified w h d acc rou p → p ∉ ps → ∃ q, q ≠ p ∧ Qualified w h d acc rou q ∧
    dist2 p q < m * m ∧ resp w d p ≤ resp w d q) ∧
  ((∃ p, Qualified w h d acc rou p) → ps ≠ [])

end FlatCV.Spec
