/-
What trimming means: which rectangle is kept.
-/
import Verif.Spec.Image

namespace FlatCV.Spec

/-- Column `x`, rows `y0 ≤ y < y1`: every pixel is like the first one in every channel, where
`good a b` says that channel values `a` and `b` are alike. -/
def ColLike (good : UInt8 → UInt8 → Prop) (g : Nat → Nat → Nat → UInt8) (ch x y0 y1 : Nat) : Prop :=
  ∀ y, y0 ≤ y → y < y1 → ∀ c, c < ch → good (g x y c) (g x y0 c)

/-- Row `y`, columns `x0 ≤ x < x1`: every pixel is like the first one. -/
def RowLike (good : UInt8 → UInt8 → Prop) (g : Nat → Nat → Nat → UInt8) (ch y x0 x1 : Nat) : Prop :=
  ∀ x, x0 ≤ x → x < x1 → ∀ c, c < ch → good (g x y c) (g x0 y c)

/-- The rectangle `[l, r) × [t, b)` kept by trimming an image with pixels `g`: first uniform
columns are removed from the left and from the right (judged over the full height), then uniform
rows from the top and from the bottom (judged over the columns that are left).  At least one
column and one row stay. -/
structure TrimBox (good : UInt8 → UInt8 → Prop) (g : Nat → Nat → Nat → UInt8) (w h ch : Nat)
    (l r t b : Nat) : Prop where
  l_lt : l < r
  r_le : r ≤ w
  t_lt : t < b
  b_le : b ≤ h
  left : ∀ x, x < l → ColLike good g ch x 0 h
  left_stop : l + 1 = w ∨ ¬ ColLike good g ch l 0 h
  right : ∀ x, r ≤ x → x < w → ColLike good g ch x 0 h
  right_stop : r = l + 1 ∨ ¬ ColLike good g ch (r - 1) 0 h
  top : ∀ y, y < t → RowLike good g ch y l r
  top_stop : t + 1 = h ∨ ¬ RowLike good g ch t l r
  bottom : ∀ y, b ≤ y → y < h → RowLike good g ch y l r
  bottom_stop : b = t + 1 ∨ ¬ RowLike good g ch (b - 1) l r

/-- Same colour. -/
def Same (a b : UInt8) : Prop := a = b

/-- Channel values that differ by at most `tol`. -/
def Within (tol : Nat) (a b : UInt8) : Prop := a.toNat ≤ b.toNat + tol ∧ b.toNat ≤ a.toNat + tol

end FlatCV.Spec
