/-
Sorting corners: what is assumed about `atan2` and what the order is.
Nothing here refers to the algorithm.
-/
import Verif.Core.Ieee
import Verif.Core.Mem

namespace FlatCV.Spec

/-- The double nearest to pi. -/
def pi64 : ℚ := 884279719003555 / 281474976710656

/-- What is assumed about `atan2`: NaN or a number between -pi and pi. -/
def AtanRange (at2 : Dbl → Dbl → Dbl) : Prop :=
  ∀ y x, at2 y x = .nan ∨ ∃ q : ℚ, at2 y x = .fin q ∧ |q| ≤ pi64

/-- The distance kept from the axes in `AtanQuadrant`. -/
def margin : ℚ := 1 / 20000

/-- `atan2` gives an angle in the right quadrant and not too close to the axes, for points whose coordinates
differ by a factor of at most 10000. -/
def AtanQuadrant (at2 : Dbl → Dbl → Dbl) : Prop :=
  ∀ x y : ℚ, x ≠ 0 → y ≠ 0 → |x| ≤ 10000 * |y| → |y| ≤ 10000 * |x| → ∃ q : ℚ, at2 (.fin y) (.fin x) = .fin q ∧
    (0 < x → 0 < y → margin ≤ q ∧ q ≤ pi64 / 2 - margin) ∧
    (x < 0 → 0 < y → pi64 / 2 + margin ≤ q ∧ q ≤ pi64 - margin) ∧
    (x < 0 → y < 0 → -pi64 + margin ≤ q ∧ q ≤ -(pi64 / 2) - margin) ∧
    (0 < x → y < 0 → -(pi64 / 2) + margin ≤ q ∧ q ≤ -margin)

/-- The centroid in double arithmetic: the coordinates added from left to right, divided by their number. -/
def IsCentre (xs : List Dbl) (c : Dbl) : Prop :=
  Dbl.div Fmt.b64 (xs.foldl (Dbl.add Fmt.b64) (.fin 0)) (.fin xs.length) = .ok c

/-- The turn that leads from direction `t` to direction `a`, clockwise in image coordinates, where `y`
points down. -/
def turn (t a : ℚ) : ℚ := if t ≤ a then a - t else a - t + 2 * pi64

/-- The heap is as before, apart from the number of allocations made. -/
def Undisturbed (hp h' : Heap) : Prop := h'.live = hp.live ∧ h'.fails = hp.fails ∧ hp.next ≤ h'.next

end FlatCV.Spec
