/-
Model of the JPEG decoder in `include/stb_image.h` for progressive files.  The parts shared with sequential files are in `JpegLoad.lean`.

Simplifications: all planes of samples are requested before all planes of coefficients (the code alternates; if a request fails, all are
freed); `stbi__jpeg_dequantize` does not write the products back, since every block is used only once.
-/
import Verif.Model.JpegLoad

namespace FlatCV.Model

/-! ### Bits -/

/-- stb_image.h:2180-2189 `stbi__jpeg_get_bit`. -/
def prog_bit (e : Ent) : CM (Bool × Ent) := do
  let e ← need 1 e
  if e.bits < 1 then pure (false, e) else pure (decide (2147483648 ≤ e.buf), drop e 1)

/-- stb_image.h:2169-2179 `stbi__jpeg_get_bits`, for `n` from 1 to 14. -/
def prog_bits (e : Ent) (n : Nat) : CM (Nat × Ent) := do
  let e ← need n e
  if e.bits < n then pure (0, e) else pure (e.buf / 2 ^ (32 - n), drop e n)

/-! ### Blocks -/

/-- The parameters of a scan, stb_image.h:1986-1990. -/
structure ScanPar where
  ss : Nat
  se : Nat
  sh : Nat
  sl : Nat

/-- stb_image.h:2265-2291 `stbi__jpeg_decode_block_prog_dc`: the coefficients, the prediction and the bits. -/
def prog_dc (q : ScanPar) (e : Ent) (hdc : JHuff) (pred : Int) (cf : Cells Int) (off : Nat) : CM (Option (Cells Int × Int × Ent)) :=
  if q.se ≠ 0 then pure none
  else do
    let e ← need 16 e
    if q.sh = 0 then do
      let cf ← forN 64 cf fun i cf => wr cf (off + i) 0
      let (t, e) ← j_huff_decode e hdc
      if t < 0 ∨ 15 < t then pure none
      else do
        let (diff, e) ← dcDiff e t
        if addintsValid pred diff = false then pure none
        else do
          let dc ← i32 (pred + diff)
          if mul2shortsValid dc (2 ^ q.sl : Nat) = false then pure none
          else do
            let p ← i32 (dc * (2 ^ q.sl : Nat))
            let cf ← wr cf off (asShort p)
            pure (some (cf, dc, e))
    else do
      let (b, e) ← prog_bit e
      if b then do
        let v ← rd cf off
        let cf ← wr cf off (asShort (v + 2 ^ q.sl))
        pure (some (cf, pred, e))
      else pure (some (cf, pred, e))

/-- The variables of the loops over coefficients. -/
structure PacSt where
  e : Ent
  k : Nat
  cf : Cells Int
  eob : Nat
  ok : Bool

/-- `data[zig] = (short) (v * (1 << shift))` with `zig = stbi__jpeg_dezigzag[k]`. -/
def putFirst (q : ScanPar) (cf : Cells Int) (off k : Nat) (v : Int) : CM (Cells Int) := do
  let zig ← rdIn jpgZag k
  let p ← i32 (v * (2 ^ q.sl : Nat))
  wr cf (off + zig) (asShort p)

/-- stb_image.h:2326-2328, 2370-2372: the bits after an end-of-band code of category `r`. -/
def eobBits (e : Ent) (r : Nat) : CM (Nat × Ent) := if r ≠ 0 then prog_bits e r else pure (0, e)

/-- stb_image.h:2310-2338: one code of a first scan; the second component is `true` when the loop ends. -/
def firstStep (q : ScanPar) (hac : JHuff) (fac : List Int) (off : Nat) (a : PacSt) : CM (PacSt × Bool) := do
  let e ← need 16 a.e
  let r ← rdIn fac (e.buf / 2 ^ 23 % 512)
  if r ≠ 0 then do
    let k := a.k + (r / 16 % 16).toNat
    let s := (r % 16).toNat
    if e.bits < s then pure ({ a with e := e, ok := false }, true)
    else do
      let cf ← putFirst q a.cf off k (r / 256)
      pure (⟨drop e s, k + 1, cf, a.eob, true⟩, decide (q.se < k + 1))
  else do
    let (rs, e) ← j_huff_decode e hac
    if rs < 0 then pure ({ a with e := e, ok := false }, true)
    else if rs % 16 = 0 then
      if rs / 16 < 15 then do
        let (b, e) ← eobBits e (rs / 16).toNat
        pure ({ a with e := e, eob := 2 ^ (rs / 16).toNat + b - 1 }, true)
      else pure ({ a with e := e, k := a.k + 16 }, decide (q.se < a.k + 16))
    else do
      let k := a.k + (rs / 16).toNat
      let (v, e) ← extend_receive e (rs % 16).toNat
      let cf ← putFirst q a.cf off k v
      pure (⟨e, k + 1, cf, a.eob, true⟩, decide (q.se < k + 1))

/-- stb_image.h:2349-2356, 2386-2393: one more bit of the coefficient `v` at `p`. -/
def refineCoef (q : ScanPar) (e : Ent) (cf : Cells Int) (p : Nat) (v : Int) : CM (Ent × Cells Int) := do
  let (b, e) ← prog_bit e
  if b = true ∧ v / 2 ^ q.sl % 2 = 0 then do
    let cf ← wr cf p (asShort (if 0 < v then v + 2 ^ q.sl else v - 2 ^ q.sl))
    pure (e, cf)
  else pure (e, cf)

/-- stb_image.h:2345-2357: a block in a run of ended blocks. -/
def refineRun (q : ScanPar) (e : Ent) (cf : Cells Int) (off : Nat) : CM (Ent × Cells Int) :=
  forN (q.se + 1 - q.ss) (e, cf) fun i st => do
    let z ← rdIn jpgZag (q.ss + i)
    let v ← rd st.2 (off + z)
    if v ≠ 0 then refineCoef q st.1 st.2 (off + z) v else pure st

/-- stb_image.h:2361-2382: the run, the new coefficient and the run of ended blocks of the code `rs`. -/
def refineHead (q : ScanPar) (rs : Int) (e : Ent) (eob : Nat) : CM (Option (Nat × Int × Nat × Ent)) :=
  if rs % 16 = 0 then
    if rs / 16 < 15 then do
      let (b, e) ← eobBits e (rs / 16).toNat
      pure (some (64, 0, 2 ^ (rs / 16).toNat - 1 + b, e))
    else pure (some ((rs / 16).toNat, 0, eob, e))
  else if rs % 16 ≠ 1 then pure none
  else do
    let (b, e) ← prog_bit e
    pure (some ((rs / 16).toNat, if b then 2 ^ q.sl else -2 ^ q.sl, eob, e))

/-- The variables of the loop that advances by `r`. -/
structure RefSt where
  e : Ent
  k : Nat
  cf : Cells Int
  r : Nat

/-- stb_image.h:2384-2401: one coefficient. -/
def refineStep (q : ScanPar) (off : Nat) (s : Int) (a : RefSt) : CM (RefSt × Bool) :=
  if q.se < a.k then pure (a, true)
  else do
    let z ← rdIn jpgZag a.k
    let v ← rd a.cf (off + z)
    if v ≠ 0 then do
      let (e, cf) ← refineCoef q a.e a.cf (off + z) v
      pure (⟨e, a.k + 1, cf, a.r⟩, false)
    else if a.r = 0 then do
      let cf ← wr a.cf (off + z) (asShort s)
      pure (⟨a.e, a.k + 1, cf, 0⟩, true)
    else pure (⟨a.e, a.k + 1, a.cf, a.r - 1⟩, false)

/-- stb_image.h:2359-2403: one code of a refining scan. -/
def refineCode (q : ScanPar) (hac : JHuff) (off : Nat) (a : PacSt) : CM (PacSt × Bool) := do
  let (rs, e) ← j_huff_decode a.e hac
  if rs < 0 then pure ({ a with e := e, ok := false }, true)
  else do
    match ← refineHead q rs e a.eob with
    | none => pure ({ a with e := e, ok := false }, true)
    | some (r, s, eob, e) => do
      let b ← whileFuel 65 (⟨e, a.k, a.cf, r⟩ : RefSt) (refineStep q off s)
      pure (⟨b.e, b.k, b.cf, eob, true⟩, decide (q.se < b.k))

/-- stb_image.h:2295-2407 `stbi__jpeg_decode_block_prog_ac`: the coefficients, the run of ended blocks and the bits. -/
def prog_ac (q : ScanPar) (e : Ent) (hac : JHuff) (fac : List Int) (eob : Nat) (cf : Cells Int) (off : Nat) : CM (Option (Cells Int × Nat × Ent)) :=
  if q.ss = 0 then pure none
  else if q.sh = 0 then
    if eob ≠ 0 then pure (some (cf, eob - 1, e))
    else do
      let a ← whileFuel 64 (⟨e, q.ss, cf, eob, true⟩ : PacSt) (firstStep q hac fac off)
      pure (if a.ok then some (a.cf, a.eob, a.e) else none)
  else
    if eob ≠ 0 then do
      let (e, cf) ← refineRun q e cf off
      pure (some (cf, eob - 1, e))
    else do
      let a ← whileFuel 64 (⟨e, q.ss, cf, eob, true⟩ : PacSt) (refineCode q hac off)
      pure (if a.ok then some (a.cf, a.eob, a.e) else none)

/-! ### Scans -/

/-- The state of the decoder with what only progressive files use. -/
structure Prog where
  j : Jst
  coef : List (Cells Int)
  q : ScanPar
  eob : Nat

/-- stb_image.h:3050-3056 and 3022-3026: the first coefficient of the block in column `x` and row `y` of component `n`. -/
def progDcAt (n x y : Nat) (p : Prog) : CM (Option Prog) := do
  let c ← rdIn p.j.comps n
  let cf ← rdIn p.coef n
  let hdc ← rdIn p.j.huffDc c.hd
  match ← prog_dc p.q p.j.e hdc c.pred cf (64 * (x + y * (c.w2 / 8))) with
  | none => pure none
  | some (cf, pred, e) => do
    let comps ← wrIn p.j.comps n { c with pred := pred }
    let coef ← wrIn p.coef n cf
    pure (some { p with j := { p.j with comps := comps, e := e }, coef := coef })

/-- stb_image.h:3022, 3027-3030: the other coefficients. -/
def progAcAt (n x y : Nat) (p : Prog) : CM (Option Prog) := do
  let c ← rdIn p.j.comps n
  let cf ← rdIn p.coef n
  let hac ← rdIn p.j.huffAc c.ha
  let fac ← rdIn p.j.fastAc c.ha
  match ← prog_ac p.q p.j.e hac fac p.eob cf (64 * (x + y * (c.w2 / 8))) with
  | none => pure none
  | some (cf, eob, e) => do
    let coef ← wrIn p.coef n cf
    pure (some { p with j := { p.j with e := e }, coef := coef, eob := eob })

/-- The outcome of part of a scan. -/
inductive ProgOut where
  | fail
  | stop (p : Prog)
  | more (p : Prog)

/-- stb_image.h:3033-3037, 3061-3065: after each MCU; a restart ends the run of ended blocks. -/
def progAfter (p : Prog) : CM ProgOut := do
  match ← afterMCU p.j with
  | .fail => pure .fail
  | .stop j => pure (.stop { p with j := j })
  | .more j => pure (.more { p with j := j, eob := if p.j.todo - 1 ≤ 0 then 0 else p.eob })

/-- stb_image.h:3046-3059: the blocks of component `n` in MCU (`i`, `j`). -/
def progComp (i jj n : Nat) (p : Prog) : CM (Option Prog) := do
  let c ← rdIn p.j.comps n
  forN c.v (some p) fun y st => forN c.h st fun x st => match st with
    | none => pure none
    | some p => progDcAt n (i * c.h + x) (jj * c.v + y) p

/-- stb_image.h:3041-3066: MCU (`i`, `j`) of an interleaved scan. -/
def progMCU (scanN i jj : Nat) (p : Prog) : CM ProgOut := do
  let r ← forN scanN (some p) fun k st => match st with
    | none => pure none
    | some p => do
      let n ← rdIn p.j.order k
      progComp i jj n p
  match r with
  | none => pure .fail
  | some p => progAfter p

/-- One MCU, unless the scan has ended. -/
def progNext (f : Prog → CM ProgOut) (st : ProgOut) : CM ProgOut :=
  match st with
  | .more p => f p
  | st => pure st

/-- stb_image.h:3011-3039: a scan of one component. -/
def progOne (p : Prog) : CM ProgOut := do
  let n ← rdIn p.j.order 0
  let c ← rdIn p.j.comps n
  forN ((c.y + 7) / 8) (ProgOut.more p) fun y st => forN ((c.x + 7) / 8) st fun x st =>
    progNext (fun p => do
      match ← (if p.q.ss = 0 then progDcAt n x y p else progAcAt n x y p) with
      | none => pure .fail
      | some p => progAfter p) st

/-- stb_image.h:2949-2951, 3010-3070 `stbi__parse_entropy_coded_data` of a progressive file. -/
def prog_entropy (scanN : Nat) (p : Prog) : CM (Option Prog) := do
  let p := { p with j := j_reset p.j, eob := 0 }
  match ← (if scanN = 1 then progOne p else forN p.j.mcuY (ProgOut.more p) fun jj st => forN p.j.mcuX st fun i st => progNext (progMCU scanN i jj) st) with
  | .fail => pure none
  | .stop p => pure (some p)
  | .more p => pure (some p)

/-- stb_image.h:3204-3241 `stbi__process_scan_header` of a progressive file, with `scan_n`. -/
def prog_scan_header (p : Prog) : CM (Option (Prog × Nat)) := do
  let (ls, s) := get16be p.j.e.s
  let (n, s) := get8 s
  let n := n.toNat
  if n < 1 ∨ 4 < n ∨ p.j.imgN < n then pure none
  else if ls ≠ 6 + 2 * n then pure none
  else do
    let r ← forN n (some (p.j.at s)) fun i st => match st with
      | none => pure none
      | some j => scanComp j i
    match r with
    | none => pure none
    | some j =>
      let (b, s) := takeBytes 3 j.e.s
      let ss := b.getD 0 0
      let se := b.getD 1 0
      let sh := b.getD 2 0 / 16
      let sl := b.getD 2 0 % 16
      if 63 < ss ∨ 63 < se ∨ se < ss ∨ 13 < sh ∨ 13 < sl then pure none
      else pure (some ({ p with j := j.at s, q := ⟨ss, se, sh, sl⟩ }, n))

/-! ### The file -/

/-- stb_image.h:3073-3078 `stbi__jpeg_dequantize`. -/
def dequantize (cf : Cells Int) (off : Nat) (dq : List Nat) : CM (List Int) :=
  forN 64 [] fun i l => do
    let v ← rd cf (off + i)
    let q ← rdIn dq i
    let p ← i32 (v * q)
    pure (l ++ [asShort p])

/-- stb_image.h:3089-3094: one block. -/
def finishBlock (n x y : Nat) (p : Prog) : CM Prog := do
  let c ← rdIn p.j.comps n
  let cf ← rdIn p.coef n
  let dq ← rdIn p.j.dequant c.tq
  let data ← dequantize cf (64 * (x + y * (c.w2 / 8))) dq
  let d ← idct_block c.data (c.w2 * (y * 8) + x * 8) c.w2 data
  let comps ← wrIn p.j.comps n { c with data := d }
  pure { p with j := { p.j with comps := comps } }

/-- stb_image.h:3080-3099 `stbi__jpeg_finish`. -/
def jpeg_finish (p : Prog) : CM Prog :=
  forN p.j.imgN p fun n p => do
    let c ← rdIn p.j.comps n
    forN ((c.y + 7) / 8) p fun y p => forN ((c.x + 7) / 8) p fun x p => finishBlock n x y p

/-- stb_image.h:3420-3448: the loop in `stbi__decode_jpeg_image`; a marker that cannot be read ends it without `stbi__jpeg_finish`. -/
def progLoop (feof : Ctx → Bool) : Nat → Nat → Prog → CM (Option Jst)
  | 0, _, _ => .error .diverge
  | n + 1, m, p =>
    if m = 0xD9 then do
      let p ← jpeg_finish p
      pure (some p.j)
    else if m = 0xDA then do
      match ← prog_scan_header p with
      | none => pure none
      | some (p, scanN) => do
        match ← prog_entropy scanN p with
        | none => pure none
        | some p => do
          let (m, j) ← afterScan feof p.j
          progLoop feof n m { p with j := j }
    else if m = 0xDC then do
      let (ld, s) := get16be p.j.e.s
      let (nl, s) := get16be s
      if ld ≠ 4 then pure none
      else if nl ≠ p.j.imgY then pure none
      else do
        let (m, j) ← get_marker (p.j.at s)
        progLoop feof n m { p with j := j }
    else do
      match ← process_marker p.j m with
      | none => pure (some p.j)
      | some j => do
        let (m, j) ← get_marker j
        progLoop feof n m { p with j := j }

/-- stb_image.h:3342-3350: the coefficients of one component; `cm` says which requests for memory succeed. -/
def coefPlane (cm : Nat → Bool) (j : Jst) (coef : List (Cells Int)) (i : Nat) : CM (Option (List (Cells Int))) := do
  let c ← rdIn j.comps i
  if mad3ok c.w2 c.h2 2 15 && cm i then do
    let coef ← wrIn coef i (List.replicate (c.w2 * c.h2) none)
    pure (some coef)
  else pure none

/-- The coefficients of all components. -/
def coefPlanes (cm : Nat → Bool) (j : Jst) : CM (Option (List (Cells Int))) :=
  forN j.imgN (some (List.replicate 4 [])) fun i st => match st with
    | none => pure none
    | some coef => coefPlane cm j coef i

/-- stb_image.h:3412-3452 `stbi__decode_jpeg_image` of a progressive file. -/
def decode_prog_image (mem : JpegMem) (cm : Nat → Bool) (feof : Ctx → Bool) (j : Jst) : CM (Option Jst) := do
  let j := { j with restart := 0, jfif := false, app14 := -1, e := { j.e with marker := 0xFF } }
  let (m, j) ← get_marker j
  if m ≠ 0xD8 then pure none
  else do
    let (m, j) ← get_marker j
    match ← headerLoop feof (j.e.s.fuel + 1) m j with
    | none => pure none
    | some (_, j) => do
      match ← process_frame_header mem j with
      | none => pure none
      | some j => do
        match ← coefPlanes cm j with
        | none => pure none
        | some coef => do
          let (m, j) ← get_marker j
          progLoop feof (j.e.s.fuel + 1) m ⟨j, coef, ⟨0, 0, 0, 0⟩, 0⟩

/-- stb_image.h:3859-4031 `load_jpeg_image` of a progressive file, with `req_comp` 4. -/
def load_prog_image (mem : JpegMem) (cm : Nat → Bool) (feof : Ctx → Bool) (s : Ctx) : CM (Option Loaded) := do
  match ← decode_prog_image mem cm feof (Jst.start s) with
  | none => pure none
  | some j => jpeg_pixels mem j

/-- stb_image.h:1137-1188 `stbi__load_main` for files: a PNG file, a JPEG file, or left to the other decoders. -/
def stbi_load_file (m : PngMem) (mem : JpegMem) (cm : Nat → Bool) (feof : Ctx → Bool) (other : CM (Option Loaded)) (file : List UInt8) : CM (Option Loaded) :=
  stbi_load_any m mem feof (load_prog_image mem cm feof (start_file file)) other file

end FlatCV.Model
