/-
Model of `fcv_foerstner_corner` (`src/foerstner_corner.c`).
-/
import Verif.Core.Mem
import Verif.Core.Ieee

namespace FlatCV.Model

/-- `calloc(n, sizeof(double))`: NULL when the size does not fit `size_t`. -/
def callocD (P : Plat) (n : Nat) : HM (Option (Buf ℚ)) :=
  if n * 8 > P.szMax then pure none else calloc n 0

/-- `malloc(n * sizeof(double))`. -/
def mallocD (P : Plat) (n : Nat) : HM (Option (Buf ℚ)) := malloc ℚ (P.sz (n * 8) / 8)

/-- `free` of several pointers that may be NULL, in order. -/
def freeAll : List (Option Nat) → HM Unit
  | [] => pure ()
  | none :: l => freeAll l
  | some i :: l => do
    free i
    freeAll l

/-- `for (uint32_t i = lo; i < hi; i++)`. -/
def forFrom {σ : Type} (lo hi : Nat) (s : σ) (body : Nat → σ → CM σ) : CM σ :=
  forN (hi - lo) s fun i s => body (lo + i) s

/-- `g += c * gray_data[...]` with an integer constant `c` (foerstner_corner.c:46-60). -/
def accum (d : List UInt8) (g c : ℚ) (i : Nat) : CM ℚ := do
  let p ← rdIn d i
  let t ← f64 (c * p.toNat)
  f64 (g + t)

/-- Index `row * width + col` in `uint32_t`. -/
def rowCol32 (width row col : Nat) : Nat := u32 (u32 (row * width) + col)

/-- foerstner_corner.c:42-63: the two gradients of one pixel. -/
def foerGrad (width : Nat) (d : List UInt8) (y x : Nat) : CM (ℚ × ℚ) := do
  let ym := u32sub y 1
  let yp := u32 (y + 1)
  let xm := u32sub x 1
  let xp := u32 (x + 1)
  let gx ← accum d 0 (-1) (rowCol32 width ym xm)
  let gx ← accum d gx 1 (rowCol32 width ym xp)
  let gx ← accum d gx (-2) (rowCol32 width y xm)
  let gx ← accum d gx 2 (rowCol32 width y xp)
  let gx ← accum d gx (-1) (rowCol32 width yp xm)
  let gx ← accum d gx 1 (rowCol32 width yp xp)
  let gy ← accum d 0 (-1) (rowCol32 width ym xm)
  let gy ← accum d gy (-2) (rowCol32 width ym x)
  let gy ← accum d gy (-1) (rowCol32 width ym xp)
  let gy ← accum d gy 1 (rowCol32 width yp xm)
  let gy ← accum d gy 2 (rowCol32 width yp x)
  let gy ← accum d gy 1 (rowCol32 width yp xp)
  let gx ← f64div gx 8
  let gy ← f64div gy 8
  pure (gx, gy)

/-- foerstner_corner.c:40-66. -/
def foerGrads (width height : Nat) (d : List UInt8) (s : Cells ℚ × Cells ℚ) :
    CM (Cells ℚ × Cells ℚ) :=
  forFrom 1 (u32sub height 1) s fun y s =>
    forFrom 1 (u32sub width 1) s fun x s => do
      let g ← foerGrad width d y x
      let a ← wr s.1 (rowCol32 width y x) g.1
      let b ← wr s.2 (rowCol32 width y x) g.2
      pure (a, b)

/-- Three blocks of doubles. -/
abbrev Tri := Cells ℚ × Cells ℚ × Cells ℚ

/-- foerstner_corner.c:82-86. -/
def foerProducts (n : Nat) (g : Cells ℚ × Cells ℚ) (s : Tri) : CM Tri :=
  forN n s fun i s => do
    let gx ← rd g.1 i
    let gy ← rd g.2 i
    let xx ← wr s.1 i (← f64 (gx * gx))
    let xy ← wr s.2.1 i (← f64 (gx * gy))
    let yy ← wr s.2.2 i (← f64 (gy * gy))
    pure (xx, xy, yy)

/-- `z | 1` on a two's complement `int32_t`. -/
def orOne (z : Int) : Int := if z % 2 = 0 then z + 1 else z

/-- foerstner_corner.c:90-94: `half_kernel`. -/
def foerHalf (sigma : Dbl) : CM Nat := do
  let z ← (Dbl.mul Fmt.b64 (.fin 3) sigma).toI32
  let kernel_size := orOne z
  let kernel_size := if kernel_size < 3 then 3 else kernel_size
  pure (kernel_size / 2).toNat

/-- foerstner_corner.c:117-131: the sums over one window and the number of samples. -/
def foerWindow (width half y x : Nat) (t : Tri) : CM (ℚ × ℚ × ℚ × Int) :=
  forN (2 * half + 1) (0, 0, 0, 0) fun j s =>
    forN (2 * half + 1) s fun i s => do
      let row := u32OfInt (y + ((j : Int) - half))
      let col := u32OfInt (x + ((i : Int) - half))
      let sample_idx := i32OfU32 (rowCol32 width row col)
      let a ← f64 (s.1 + (← rdZ t.1 sample_idx))
      let b ← f64 (s.2.1 + (← rdZ t.2.1 sample_idx))
      let c ← f64 (s.2.2.1 + (← rdZ t.2.2 sample_idx))
      let n ← i32 (s.2.2.2 + 1)
      pure (a, b, c, n)

/-- foerstner_corner.c:114-138. -/
def foerSmooth (width height half : Nat) (t : Tri) (s : Tri) : CM Tri :=
  forFrom half (u32sub height half) s fun y s =>
    forFrom half (u32sub width half) s fun x s => do
      let r ← foerWindow width half y x t
      let idx := rowCol32 width y x
      let a ← wr s.1 idx (← f64div r.1 r.2.2.2)
      let b ← wr s.2.1 idx (← f64div r.2.1 r.2.2.2)
      let c ← wr s.2.2 idx (← f64div r.2.2.1 r.2.2.2)
      pure (a, b, c)

/-- The double nearest to `1e-10`. -/
def tiny10 : ℚ := 7737125245533627 / 77371252455336267181195264

/-- foerstner_corner.c:175-188: `w` and `q` of one pixel. -/
def foerMeasure (a c b : ℚ) : CM (ℚ × ℚ) := do
  let det ← f64 ((← f64 (a * b)) - (← f64 (c * c)))
  let trace ← f64 (a + b)
  if |trace| > tiny10 then do
    let w ← f64div det trace
    let q ← f64div (← f64 (4 * det)) (← f64 (trace * trace))
    pure (max 0 w, max 0 q)
  else pure (0, 0)

/-- Variables of the first pass. -/
structure FoerState where
  ws : Cells ℚ
  qs : Cells ℚ
  max_w : ℚ
  max_q : ℚ

/-- foerstner_corner.c:173-196. -/
def foerFirst (n : Nat) (t : Tri) (ws qs : Cells ℚ) : CM FoerState :=
  forN n ⟨ws, qs, 0, 0⟩ fun i s => do
    let a ← rd t.1 i
    let c ← rd t.2.1 i
    let b ← rd t.2.2 i
    let r ← foerMeasure a c b
    let ws ← wr s.ws i r.1
    let qs ← wr s.qs i r.2
    pure ⟨ws, qs, if r.1 > s.max_w then r.1 else s.max_w, if r.2 > s.max_q then r.2 else s.max_q⟩

/-- foerstner_corner.c:202-207: one normalised byte. -/
def foerByte (m v : ℚ) : CM UInt8 :=
  if m > 0 then do
    let t ← f64 (255 * v)
    castU8 (← f64div t m)
  else pure 0

/-- foerstner_corner.c:199-211. -/
def foerSecond (n : Nat) (s : FoerState) (out : Cells UInt8) : CM (Cells UInt8) :=
  forN n out fun i out => do
    let w_byte ← foerByte s.max_w (← rd s.ws i)
    let q_byte ← foerByte s.max_q (← rd s.qs i)
    let out ← wr out (u32 (i * 2)) w_byte
    wr out (u32 (u32 (i * 2) + 1)) q_byte

/-- foerstner_corner.c:20-220.  `malloc(width * height * 2)` computes its size in `uint32_t`.
On failure the source frees the blocks in another order in one place, which no caller can
observe. -/
def fcv_foerstner_corner (P : Plat) (width height : Nat) (data : Option (List UInt8))
    (sigma : Dbl) : HM (Option (Buf UInt8)) :=
  match data with
  | none => pure none
  | some d =>
    if width = 0 ∨ height = 0 then pure none
    else do
      let n := u32 (width * height)
      let grad_x ← callocD P n
      let grad_y ← callocD P n
      match grad_x, grad_y with
      | some gx, some gy => do
        let g ← use [gx.id, gy.id] (foerGrads width height d (gx.cells, gy.cells))
        let Axx ← mallocD P n
        let Axy ← mallocD P n
        let Ayy ← mallocD P n
        match Axx, Axy, Ayy with
        | some xx, some xy, some yy => do
          let t ← use [gx.id, gy.id, xx.id, xy.id, yy.id]
            (foerProducts n g (xx.cells, xy.cells, yy.cells))
          let half ← use [] (foerHalf sigma)
          let Sxx ← callocD P n
          let Sxy ← callocD P n
          let Syy ← callocD P n
          match Sxx, Sxy, Syy with
          | some sx, some sc, some sy => do
            let s ← use [xx.id, xy.id, yy.id, sx.id, sc.id, sy.id]
              (foerSmooth width height half t (sx.cells, sc.cells, sy.cells))
            match ← malloc UInt8 (u32 (n * 2)) with
            | some result => do
              let w_values ← mallocD P n
              let q_values ← mallocD P n
              match w_values, q_values with
              | some wv, some qv => do
                let f ← use [sx.id, sc.id, sy.id, wv.id, qv.id] (foerFirst n s wv.cells qv.cells)
                let out ← use [wv.id, qv.id, result.id] (foerSecond n f result.cells)
                freeAll [some wv.id, some qv.id, some gx.id, some gy.id, some xx.id, some xy.id,
                  some yy.id, some sx.id, some sc.id, some sy.id]
                pure (some { result with cells := out })
              | wv, qv => do
                freeAll [some result.id, wv.map (·.id), qv.map (·.id), some gx.id, some gy.id,
                  some xx.id, some xy.id, some yy.id, some sx.id, some sc.id, some sy.id]
                pure none
            | none => do
              freeAll [some gx.id, some gy.id, some xx.id, some xy.id, some yy.id, some sx.id,
                some sc.id, some sy.id]
              pure none
          | sx, sc, sy => do
            freeAll [some gx.id, some gy.id, some xx.id, some xy.id, some yy.id, sx.map (·.id),
              sc.map (·.id), sy.map (·.id)]
            pure none
        | xx, xy, yy => do
          freeAll [some gx.id, some gy.id, xx.map (·.id), xy.map (·.id), yy.map (·.id)]
          pure none
      | gx, gy => do
        freeAll [gx.map (·.id), gy.map (·.id)]
        pure none

end FlatCV.Model
