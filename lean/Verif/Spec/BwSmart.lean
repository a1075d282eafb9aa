/-
What smart binarisation promises.
-/
import Verif.Spec.Blur
import Verif.Spec.Gray

namespace FlatCV.Spec

/-- Contrast of a gray value against its surroundings `b`, around the neutral level 127. -/
def contrast (g b : UInt8) : UInt8 := UInt8.ofNat (min 255 (127 + g.toNat - b.toNat))

end FlatCV.Spec
