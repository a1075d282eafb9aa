/-
Model of `src/perspectivetransform.c`.

The solver and the matrix set-up are written over an abstract arithmetic, so that the same program
can be read with `double` arithmetic (`Arith.dbl`) and with exact arithmetic (`Arith.exact`).
-/
import Verif.Model.Foerstner

namespace FlatCV.Model

/-- The operations on numbers that the code uses. -/
structure Arith (α : Type) where
  sub : α → α → α
  mul : α → α → α
  div : α → α → CM α
  neg : α → α
  abs : α → α
  lt : α → α → Bool
  isNan : α → Bool
  isInf : α → Bool
  ofRat : ℚ → α

/-- `fabs`. -/
def absDbl : Dbl → Dbl
  | .nan => .nan
  | .inf _ => .inf false
  | .fin q => .fin |q|

/-- `double` arithmetic. -/
def Arith.dbl : Arith Dbl where
  sub := Dbl.sub Fmt.b64
  mul := Dbl.mul Fmt.b64
  div := Dbl.div Fmt.b64
  neg := Dbl.neg
  abs := absDbl
  lt := Dbl.lt
  isNan := fun x => match x with | .nan => true | _ => false
  isInf := fun x => match x with | .inf _ => true | _ => false
  ofRat := .fin

/-- Exact arithmetic; dividing by zero is a fault. -/
def Arith.exact : Arith ℚ where
  sub := (· - ·)
  mul := (· * ·)
  div := fun a b => if b = 0 then .error .fpSpecial else .ok (a / b)
  neg := fun a => -a
  abs := fun a => |a|
  lt := fun a b => decide (a < b)
  isNan := fun _ => false
  isInf := fun _ => false
  ofRat := id

variable {α : Type} (R : Arith α)

/-- `aug[i][j]` of `double aug[8][10]`. -/
def augRd (s : Cells α) (i j : Nat) : CM α := rd s (i * 10 + j)
def augWr (s : Cells α) (i j : Nat) (v : α) : CM (Cells α) := wr s (i * 10 + j) v

/-- perspectivetransform.c:32-41: the augmented matrix.  `A` and `b` are arrays of the caller that
are fully initialised and only read. -/
def augInit (A : Nat → Nat → α) (b : Nat → α) : CM (Cells α) :=
  forN 8 (List.replicate 80 none) fun i s => do
    let s ← forN 8 s fun j s => augWr s i j (A i j)
    augWr s i 8 (b i)

/-- perspectivetransform.c:46-54: `max_row` and `max_val`. -/
def pivotOf (s : Cells α) (i : Nat) : CM (Nat × α) := do
  let d ← augRd s i i
  forFrom (i + 1) 8 (i, R.abs d) fun k m => do
    let v ← augRd s k i
    pure (if R.lt m.2 (R.abs v) then (k, R.abs v) else m)

/-- perspectivetransform.c:63-69. -/
def swapRows (s : Cells α) (i m : Nat) : CM (Cells α) :=
  forN 9 s fun j s => do
    let temp ← augRd s i j
    let v ← augRd s m j
    let s ← augWr s i j v
    augWr s m j temp

/-- perspectivetransform.c:72-77. -/
def eliminate (s : Cells α) (i : Nat) : CM (Cells α) :=
  forFrom (i + 1) 8 s fun j s => do
    let factor ← R.div (← augRd s j i) (← augRd s i i)
    forFrom i 9 s fun k s => do
      let v ← augRd s j k
      let p ← augRd s i k
      augWr s j k (R.sub v (R.mul factor p))

/-- perspectivetransform.c:44-78: the elimination; the flag is false after `return 0`. -/
def forward (s : Cells α) : CM (Cells α × Bool) :=
  forBreak 8 0 (s, true) fun i st => do
    let m ← pivotOf R st.1 i
    if R.lt m.2 (R.ofRat tiny10) then pure ((st.1, false), true)
    else do
      let s ← if m.1 ≠ i then swapRows st.1 i m.1 else pure st.1
      let s ← eliminate R s i
      pure ((s, true), false)

/-- perspectivetransform.c:81-98: back substitution into `x[8]`. -/
def backward (s : Cells α) (x : Cells α) : CM (Cells α × Bool) :=
  forBreak 8 0 (x, true) fun t st => do
    let i := 7 - t
    let d ← augRd s i i
    if R.lt (R.abs d) (R.ofRat tiny10) then pure ((st.1, false), true)
    else do
      let x ← wr st.1 i (← augRd s i 8)
      let x ← forFrom (i + 1) 8 x fun j x => do
        let v ← rd x i
        let a ← augRd s i j
        let xj ← rd x j
        wr x i (R.sub v (R.mul a xj))
      let v ← rd x i
      let q ← R.div v d
      let x ← wr x i q
      if R.isNan q || R.isInf q then pure ((x, false), true) else pure ((x, true), false)

/-- perspectivetransform.c:27-101.  `none` is the return value 0. -/
def solve_linear_system (A : Nat → Nat → α) (b : Nat → α) (x : Cells α) : CM (Option (Cells α)) := do
  let s ← augInit A b
  let f ← forward R s
  if f.2 then do
    let r ← backward R f.1 x
    pure (if r.2 then some r.1 else none)
  else pure none

/-- `Corners`: top-left, top-right, bottom-right, bottom-left. -/
structure Corners (α : Type) where
  tl_x : α
  tl_y : α
  tr_x : α
  tr_y : α
  br_x : α
  br_y : α
  bl_x : α
  bl_y : α

/-- The `switch` in perspectivetransform.c:167-195. -/
def Corners.x (c : Corners α) : Nat → α
  | 0 => c.tl_x
  | 1 => c.tr_x
  | 2 => c.br_x
  | _ => c.bl_x
def Corners.y (c : Corners α) : Nat → α
  | 0 => c.tl_y
  | 1 => c.tr_y
  | 2 => c.br_y
  | _ => c.bl_y

/-- Some coordinate satisfies `p`. -/
def Corners.any (c : Corners α) (p : α → Bool) : Bool :=
  p c.tl_x || p c.tl_y || p c.tr_x || p c.tr_y || p c.br_x || p c.br_y || p c.bl_x || p c.bl_y

/-- `Matrix3x3`. -/
structure Mat (α : Type) where
  m00 : α
  m01 : α
  m02 : α
  m10 : α
  m11 : α
  m12 : α
  m20 : α
  m21 : α
  m22 : α

/-- perspectivetransform.c:117. -/
def Mat.identity : Mat α := ⟨R.ofRat 1, R.ofRat 0, R.ofRat 0, R.ofRat 0, R.ofRat 1, R.ofRat 0,
  R.ofRat 0, R.ofRat 0, R.ofRat 1⟩

/-- perspectivetransform.c:112, 203-216: the matrix `A` (all other entries are 0). -/
def sysA (s d : Corners α) (r c : Nat) : α :=
  if r < 4 then
    match c with
    | 0 => s.x r
    | 1 => s.y r
    | 2 => R.ofRat 1
    | 6 => R.mul (R.neg (s.x r)) (d.x r)
    | 7 => R.mul (R.neg (s.y r)) (d.x r)
    | _ => R.ofRat 0
  else
    match c with
    | 3 => s.x (r - 4)
    | 4 => s.y (r - 4)
    | 5 => R.ofRat 1
    | 6 => R.mul (R.neg (s.x (r - 4))) (d.y (r - 4))
    | 7 => R.mul (R.neg (s.y (r - 4))) (d.y (r - 4))
    | _ => R.ofRat 0

/-- perspectivetransform.c:209, 217: the vector `b`. -/
def sysB (d : Corners α) (r : Nat) : α := if r < 4 then d.x r else d.y (r - 4)

/-- perspectivetransform.c:227-232: the solution passes the checks. -/
def solutionOk (x : Cells α) : CM Bool :=
  forBreak 8 0 true fun i _ => do
    let v ← rd x i
    if R.isNan v || R.isInf v || R.lt (R.ofRat 1000000) (R.abs v) then pure (false, true)
    else pure (true, false)

/-- What the function returns: a pointer to its static identity matrix or to a new matrix. -/
inductive TMat (α : Type) where
  | static
  | heap (id : Nat) (m : Mat α)

/-- perspectivetransform.c:107-256.  The result of `malloc` is used without a check.  The final
validation (240-250) repeats the tests already made on `x`, so it never fails. -/
def fcv_calculate_perspective_transform (src dst : Option (Corners α)) : HM (TMat α) :=
  match src, dst with
  | some s, some d =>
    if s.any R.isNan || d.any R.isNan then pure .static
    else if s.any R.isInf || d.any R.isInf then pure .static
    else do
      match ← use [] (solve_linear_system R (sysA R s d) (sysB d) (List.replicate 8 (some (R.ofRat 0)))) with
      | none => pure .static
      | some x =>
        if ← use [] (solutionOk R x) then do
          match ← malloc α 9 with
          | none => hfault .nullDeref
          | some p => do
            let m ← use [p.id] (do
              let m00 ← rd x 0
              let m01 ← rd x 1
              let m02 ← rd x 2
              let m10 ← rd x 3
              let m11 ← rd x 4
              let m12 ← rd x 5
              let m20 ← rd x 6
              let m21 ← rd x 7
              pure ⟨m00, m01, m02, m10, m11, m12, m20, m21, R.ofRat 1⟩)
            pure (.heap p.id m)
        else pure .static
  | _, _ => pure .static

/-! ### Applying a matrix -/

/-- The value of a double that is about to be converted to an integer type: NaN and infinities make
the conversion undefined. -/
def finiteVal : Dbl → CM ℚ
  | .fin q => .ok q
  | _ => .error .castRange

/-- `1e-9`. -/
def tiny9 : ℚ := 4835703278458517 / 4835703278458516698824704

/-- perspectivetransform.c:289-294: the matrix after the patch for flips. -/
def patchFlip (in_width in_height : Int) (m : Mat Dbl) : Mat Dbl :=
  if Dbl.lt (absDbl (Dbl.add Fmt.b64 m.m00 (.fin 1))) (.fin tiny9) &&
      Dbl.lt (absDbl (Dbl.add Fmt.b64 m.m11 (.fin 1))) (.fin tiny9) &&
      decide (m.m02 = .fin 0) && decide (m.m12 = .fin 0) then
    { m with m02 := .fin (in_width - 1 : Int), m12 := .fin (in_height - 1 : Int) }
  else m

/-- `a * x + b * y + c` in doubles. -/
def affine (a b c : Dbl) (x y : Nat) : Dbl :=
  Dbl.add Fmt.b64 (Dbl.add Fmt.b64 (Dbl.mul Fmt.b64 a (.fin x)) (Dbl.mul Fmt.b64 b (.fin y))) c

/-- `(y * width + x) * 4` in `int32_t`. -/
def pixIdx (width x y : Int) : CM Int := do
  let a ← i32 (y * width)
  let b ← i32 (a + x)
  i32 (b * 4)

/-- perspectivetransform.c:346-347: one channel. -/
def warpByte (d : List UInt8) (p00 p01 p10 p11 : Int) (dx dy : ℚ) (c : Nat) : CM UInt8 := do
  let ex ← f64 (1 - dx)
  let ey ← f64 (1 - dy)
  let v00 ← rdInZ d (p00 + c)
  let v01 ← rdInZ d (p01 + c)
  let v10 ← rdInZ d (p10 + c)
  let v11 ← rdInZ d (p11 + c)
  let a ← f64 ((← f64 (v00.toNat * ex)) * ey)
  let b ← f64 ((← f64 (v01.toNat * dx)) * ey)
  let e ← f64 ((← f64 (v10.toNat * ex)) * dy)
  let f ← f64 ((← f64 (v11.toNat * dx)) * dy)
  castU8 (← f64 ((← f64 ((← f64 (a + b)) + e)) + f))

/-- perspectivetransform.c:305-349: one output pixel. -/
def warpPixel (in_width in_height : Int) (d : List UInt8) (out_width : Int) (m : Mat Dbl)
    (out_y out_x : Nat) (out : Cells UInt8) : CM (Cells UInt8) := do
  let w := affine m.m20 m.m21 m.m22 out_x out_y
  if Dbl.lt (absDbl w) (.fin tiny10) then pure out
  else do
    let srcX ← finiteVal (← Dbl.div Fmt.b64 (affine m.m00 m.m01 m.m02 out_x out_y) w)
    let srcY ← finiteVal (← Dbl.div Fmt.b64 (affine m.m10 m.m11 m.m12 out_x out_y) w)
    let x0 ← castI32 (⌊srcX⌋ : ℤ)
    let y0 ← castI32 (⌊srcY⌋ : ℤ)
    let x1 ← i32 (x0 + 1)
    let y1 ← i32 (y0 + 1)
    if 0 ≤ x0 ∧ x0 < in_width ∧ 0 ≤ y0 ∧ y0 < in_height then do
      let x1c := if x1 < in_width then x1 else x0
      let y1c := if y1 < in_height then y1 else y0
      let dx ← f64 (srcX - x0)
      let dy ← f64 (srcY - y0)
      let dx := if x1c = x0 then 0 else dx
      let dy := if y1c = y0 then 0 else dy
      let p00 ← pixIdx in_width x0 y0
      let p01 ← pixIdx in_width x1c y0
      let p10 ← pixIdx in_width x0 y1c
      let p11 ← pixIdx in_width x1c y1c
      forN 4 out fun c out => do
        let v ← warpByte d p00 p01 p10 p11 dx dy c
        let o ← pixIdx out_width out_x out_y
        wrZ out (← i32 (o + c)) v
    else pure out

/-- perspectivetransform.c:263-354.  The matrix is modified in place; the second component is its
value afterwards. -/
def fcv_apply_matrix_3x3 (P : Plat) (in_width in_height : Int) (data : Option (List UInt8))
    (out_width out_height : Int) (tmat : Option (Mat Dbl)) : HM (Option (Buf UInt8) × Option (Mat Dbl)) :=
  match data, tmat with
  | some d, some m =>
    if in_width ≤ 0 ∨ in_height ≤ 0 ∨ out_width ≤ 0 ∨ out_height ≤ 0 then pure (none, some m)
    else if out_width.toNat > P.szMax / out_height.toNat then pure (none, some m)
    else
      let out_pixels := P.sz (out_width.toNat * out_height.toNat)
      if out_pixels > P.szMax / 4 then pure (none, some m)
      else do
        let m := patchFlip in_width in_height m
        match ← calloc (P.sz (out_pixels * 4)) (0 : UInt8) with
        | none => pure (none, some m)
        | some b => do
          let c ← use [b.id] (forN out_height.toNat b.cells fun out_y s =>
            forN out_width.toNat s fun out_x s =>
              warpPixel in_width in_height d out_width m out_y out_x s)
          pure (some { b with cells := c }, some m)
  | _, m => pure (none, m)

end FlatCV.Model
