/-
Model of `src/extract_document.c` and of the wrapper at the end of `src/corner_detection.c`.

`pow(x, 2)` is a parameter, as are `exp`, `atan2` and `asin`.
-/
import Verif.Model.Detect
import Verif.Model.Perspective

namespace FlatCV.Model

/-- Functions of the C mathematics library: `exp`, `atan2`, `asin` and `pow(·, 2)`. -/
structure MathLib where
  ex : ℚ → ℚ
  at2 : Dbl → Dbl → Dbl
  asn : Dbl → Dbl
  pow2 : Dbl → Dbl

/-- corner_detection.c:612-621 `fcv_detect_corners_ptr`: the corners in a block of their own. -/
def fcv_detect_corners_ptr (P : Plat) (M : MathLib) (image : Option (List UInt8)) (width height : Int) :
    HM (Option (Nat × Corners Dbl)) := do
  let c ← fcv_detect_corners P M.ex M.at2 M.asn image width height
  match ← malloc UInt8 64 with
  | none => pure none
  | some b => pure (some (b.id, c))

/-- extract_document.c:28-37, 122-131: the corners of an upright rectangle of the given size. -/
def rectCorners (ow oh : Nat) : Corners Dbl :=
  ⟨.fin 0, .fin 0, .fin (u32sub ow 1), .fin 0, .fin (u32sub ow 1), .fin (u32sub oh 1), .fin 0, .fin (u32sub oh 1)⟩

/-- extract_document.c:59-65, 154-160: all nine coefficients are those of the identity. -/
def Mat.isIdentity (m : Mat Dbl) : Bool :=
  decide (m.m00 = .fin 1 ∧ m.m01 = .fin 0 ∧ m.m02 = .fin 0 ∧ m.m10 = .fin 0 ∧ m.m11 = .fin 1 ∧ m.m12 = .fin 0 ∧
    m.m20 = .fin 0 ∧ m.m21 = .fin 0 ∧ m.m22 = .fin 1)

/-- `free` of an object that was not allocated. -/
def freeStatic {α : Type} : HM α := fun _ => .error .badFree

/-- extract_document.c:40-68 and 135-163, the common end of both functions.  A matrix is released unless it is the identity;
releasing the static matrix of `fcv_calculate_perspective_transform` is a fault. -/
def warpDocument (P : Plat) (width height : Nat) (d : List UInt8) (corners : Corners Dbl) (ow oh : Nat) :
    HM (Option (Buf UInt8)) := do
  let t ← fcv_calculate_perspective_transform Arith.dbl (some (rectCorners ow oh)) (some corners)
  let m := match t with
    | .static => Mat.identity Arith.dbl
    | .heap _ m => m
  let r ← fcv_apply_matrix_3x3 P (i32OfU32 width) (i32OfU32 height) (some d) (i32OfU32 ow) (i32OfU32 oh) (some m)
  match r.2 with
  | none => pure r.1
  | some m' =>
    if m'.isIdentity then pure r.1
    else match t with
      | .static => freeStatic
      | .heap id _ => do
        free id
        pure r.1

/-- extract_document.c:12-69 `fcv_extract_document`. -/
def fcv_extract_document (P : Plat) (M : MathLib) (width height : Nat) (data : Option (List UInt8)) (ow oh : Nat) :
    HM (Option (Buf UInt8)) :=
  match data with
  | none => pure none
  | some d => do
    let corners ← fcv_detect_corners P M.ex M.at2 M.asn (some d) (i32OfU32 width) (i32OfU32 height)
    warpDocument P width height d corners ow oh

/-- extract_document.c:89-104: the distance of two corners. -/
def cornerDist (M : MathLib) (ax ay bx b_y : Dbl) : CM Dbl :=
  sqrtDbl (Dbl.add Fmt.b64 (M.pow2 (Dbl.sub Fmt.b64 ax bx)) (M.pow2 (Dbl.sub Fmt.b64 ay b_y)))

/-- `fmax`. -/
def fmaxDbl : Dbl → Dbl → Dbl
  | .nan, b => b
  | a, .nan => a
  | a, b => if Dbl.lt a b then b else a

/-- extract_document.c:112-120: a length rounded to pixels, at least 100. -/
def documentSide (a b : Dbl) : CM Nat := do
  let q ← finiteVal (Dbl.add Fmt.b64 (fmaxDbl a b) (.fin (1 / 2)))
  let n ← castU32 q
  pure (if n < 100 then 100 else n)

/-- extract_document.c:88-120: the size of the output. -/
def documentSize (M : MathLib) (k : Corners Dbl) : CM (Nat × Nat) := do
  let top ← cornerDist M k.tr_x k.tr_y k.tl_x k.tl_y
  let bottom ← cornerDist M k.br_x k.br_y k.bl_x k.bl_y
  let left ← cornerDist M k.bl_x k.bl_y k.tl_x k.tl_y
  let right ← cornerDist M k.br_x k.br_y k.tr_x k.tr_y
  let w ← documentSide top bottom
  let h ← documentSide left right
  pure (w, h)

/-- extract_document.c:71-165 `fcv_extract_document_auto`, called with pointers for the size. -/
def fcv_extract_document_auto (P : Plat) (M : MathLib) (width height : Nat) (data : Option (List UInt8)) :
    HM (Option (Buf UInt8) × Option (Nat × Nat)) :=
  match data with
  | none => pure (none, none)
  | some d => do
    let corners ← fcv_detect_corners P M.ex M.at2 M.asn (some d) (i32OfU32 width) (i32OfU32 height)
    let s ← use [] (documentSize M corners)
    let r ← warpDocument P width height d corners s.1 s.2
    pure (r, some s)

end FlatCV.Model
