/-
Model of the pipeline parser of `src/cli.c`.  Messages on stderr are not modelled.  `atof` and the formatting of a number by
`%.2f` are parameters.
-/
import Verif.Model.Cstr
import Verif.Core.Ieee

namespace FlatCV.Model

/-- cli.c:35-47 `PipelineOp`. -/
structure PipelineOp where
  operation : List Char
  param : Dbl := .fin 0
  has_param : Bool := false
  param2 : Dbl := .fin 0
  has_param2 : Bool := false
  param3 : Dbl := .fin 0
  has_param3 : Bool := false
  param4 : Dbl := .fin 0
  has_param4 : Bool := false
  param_str : List Char := []
  has_string_param : Bool := false
deriving DecidableEq

/-- cli.c:49-53 `Pipeline`: the block of the structure, the block of its array (`none` for NULL), its capacity and the operations
stored so far. -/
structure Pipeline where
  pid : Nat
  opsId : Option Nat
  capacity : Int
  ops : List PipelineOp

/-- `sizeof(PipelineOp)`: 32 + 4·8 + 64 + 5·4 bytes and 4 bytes of padding. -/
def sizeofOp : Nat := 152

/-- cli.c:149-155 `create_pipeline`: neither allocation is checked. -/
def create_pipeline : HM Pipeline := do
  match ← malloc UInt8 24 with
  | none => hfault .nullDeref
  | some p => do
    match ← malloc UInt8 (sizeofOp * 8) with
    | none => pure ⟨p.id, none, 8, []⟩
    | some q => pure ⟨p.id, some q.id, 8, []⟩

/-- `free` of a block or of NULL. -/
def freeMaybe : Option Nat → HM Unit
  | none => pure ()
  | some i => free i

/-- cli.c:157-162 `free_pipeline`. -/
def free_pipeline (p : Pipeline) : HM Unit := do
  use [p.pid] (pure ())
  freeMaybe p.opsId
  free p.pid

/-- cli.c:164-173 `pipeline_has_binarization`. -/
def pipeline_has_binarization (p : Pipeline) : Bool :=
  p.ops.any fun o => o.operation = "threshold".toList ∨ o.operation = "bw_smart".toList ∨ o.operation = "bw_smooth".toList

/-- `realloc` of the operations to `n` bytes: a new block, the old one is released; NULL leaves the old one alone. -/
def reallocOps (old : Option Nat) (n : Nat) : HM (Option Nat) := do
  match ← malloc UInt8 n with
  | none => pure none
  | some q => do
    freeMaybe old
    pure (some q.id)

/-- Access to the first free entry of the array. -/
def touchOps (q : Pipeline) : HM Unit :=
  match q.opsId with
  | none => hfault .nullDeref
  | some i => use [i] (if (q.ops.length : Int) < q.capacity then pure () else .error .oobWrite)

/-- cli.c:175-223 `add_operation`: names are cut to 31, string parameters to 63 characters.  A failed `realloc` (191) is not
checked, so the following write goes through NULL, as it does if the array could not be allocated at all.  Writing entry `count` of an array of `capacity` entries has to be in bounds. -/
def add_operation (P : Plat) (p : Pipeline) (o : PipelineOp) : HM Pipeline := do
  use [p.pid] (pure ())
  let q ← if p.capacity ≤ (p.ops.length : Int) then do
      let cap ← use [] (i32 (p.capacity * 2))
      match ← reallocOps p.opsId (P.sz (sizeofOp * cap.toNat)) with
      | none => hfault .nullDeref
      | some i => pure { p with opsId := some i, capacity := cap }
    else pure p
  touchOps q
  let o := { o with operation := o.operation.take 31, param_str := if o.has_string_param then o.param_str.take 63 else [] }
  pure { q with ops := q.ops ++ [o] }

/-- What the parser takes from the C library: `atof`, `%.2f` and `LONG_MAX`. -/
structure Lib where
  atof : List Char → Dbl
  fmt : Dbl → List Char
  lmax : Nat

/-- `strdup(s)` whose result is used without a check, then freed: the allocation. -/
def strdup (s : List Char) : HM Nat := do
  match ← malloc Char (s.length + 1) with
  | none => hfault .nullDeref
  | some b => pure b.id

/-- One or two numbers (cli.c:390-427 for resize, 762-798 for the other operations). -/
def numericOp (L : Lib) (piece params : List Char) : PipelineOp :=
  match cutAt ' ' params with
  | some (a, b) => { operation := piece, param := L.atof (trim_whitespace a), has_param := true,
                     param2 := L.atof (trim_whitespace b), has_param2 := true }
  | none => { operation := piece, param := L.atof params, has_param := true }

/-- cli.c:430-505 and 506-581: circle and disk.  `none` stands for the error exits (475-504).  The copy of the position is
released here, before instead of after the operation is stored. -/
def shapeOp (L : Lib) (piece params : List Char) : HM (Option PipelineOp) :=
  match cutAt ' ' params with
  | none => pure none
  | some (a, b) =>
    let color := trim_whitespace a
    let remaining := trim_whitespace b
    match cutAt ' ' remaining with
    | none => pure none
    | some (r, pos) => do
      let radius := L.atof (trim_whitespace r)
      let position := trim_whitespace pos
      let copy ← strdup position
      match cutAt 'x' position with
      | none => do
        free copy
        pure none
      | some (x, y) => do
        let cx := L.atof (trim_whitespace x)
        let cy := L.atof (trim_whitespace y)
        free copy
        pure (some { operation := piece, param := radius, has_param := true, param2 := cx, has_param2 := true,
                     param3 := cy, has_param3 := true,
                     param_str := (color ++ ' ' :: L.fmt cx ++ ' ' :: L.fmt cy).take 127, has_string_param := true })

/-- cli.c:634-680: extract_document_to.  `(uint32_t)atoi(…)` makes negative numbers large. -/
def extractToOp (L : Lib) (piece params : List Char) : HM (Option PipelineOp) := do
  let copy ← strdup params
  match cutAt 'x' params with
  | none => do
    free copy
    pure none
  | some (a, b) => do
    let w ← use [] (atoi L.lmax (trim_whitespace a))
    let h ← use [] (atoi L.lmax (trim_whitespace b))
    let w := u32OfInt w
    let h := u32OfInt h
    free copy
    if w > 0 ∧ h > 0 then
      pure (some { operation := piece, param := .fin w, has_param := true, param2 := .fin h, has_param2 := true })
    else pure none

/-- cli.c:599-633: crop. -/
def cropOp (piece : List Char) (w h : Nat) (x y : Int) : PipelineOp where
  operation := piece
  param := .fin x
  has_param := true
  param2 := .fin y
  has_param2 := true
  param3 := .fin w
  has_param3 := true
  param4 := .fin h
  has_param4 := true

/-- cli.c:367-799: the operation with the parameters `params`, or `none` for an error. -/
def paramOp (L : Lib) (piece params : List Char) : HM (Option PipelineOp) :=
  if piece = "resize".toList then
    if '%' ∈ params ∨ 'x' ∈ params then pure (some { operation := piece, param_str := params, has_string_param := true })
    else pure (some (numericOp L piece params))
  else if piece = "circle".toList ∨ piece = "disk".toList then shapeOp L piece params
  else if piece = "watershed".toList then
    pure (some { operation := piece, param_str := params, has_string_param := true })
  else if piece = "crop".toList then
    match parse_geometry L.lmax (some params) with
    | none => pure none
    | some (w, h, x, y) => pure (some (cropOp piece w h x y))
  else if piece = "extract_document_to".toList then extractToOp L piece params
  else if piece = "extract_document".toList then pure (some { operation := piece })
  else if piece = "border".toList then
    match cutAt ' ' params with
    | none => pure none
    | some (a, b) =>
      let width := L.atof (trim_whitespace b)
      if Dbl.lt (.fin 0) width then
        pure (some { operation := piece, param := width, has_param := true, param_str := trim_whitespace a, has_string_param := true })
      else pure none
  else if piece = "trim".toList then
    if '%' ∈ params then pure (some { operation := piece, param_str := params, has_string_param := true })
    else pure (some { operation := piece, param := L.atof params, has_param := true })
  else pure (some (numericOp L piece params))

/-- cli.c:353-358: one pair of parentheses around the piece is removed. -/
def stripParens (piece : List Char) : List Char :=
  if piece.head? = some '(' ∧ piece.getLast? = some ')' then trim_whitespace piece.dropLast.tail else piece

/-- cli.c:346-804: the pieces one after the other; the Boolean is the return value of `parse_pipeline`. -/
def parsePieces (P : Plat) (L : Lib) : List (List Char) → Pipeline → HM (Bool × Pipeline)
  | [], p => pure (true, p)
  | tok :: rest, p =>
    let piece := trim_whitespace tok
    if piece = [] then parsePieces P L rest p
    else
      let piece := stripParens piece
      if piece = [] then parsePieces P L rest p
      else match cutAt ' ' piece with
        | none => do
          let p ← add_operation P p { operation := piece }
          parsePieces P L rest p
        | some (name, params) => do
          match ← paramOp L name (trim_whitespace params) with
          | none => pure (false, p)
          | some o => do
            let p ← add_operation P p o
            parsePieces P L rest p

/-- cli.c:332-343: the arguments joined by spaces. -/
def joinArgs (args : List (List Char)) (cells : Cells Char) : CM (Cells Char) := do
  let c ← wr cells 0 nul
  forN args.length c fun i c => do
    let c ← if 0 < i then strcat c [' '] else pure c
    let a ← rdIn args i
    strcat c a

/-- cli.c:311-810 `parse_pipeline` for the arguments `argv[start_idx..end_idx)`. -/
def parse_pipeline (P : Plat) (L : Lib) (args : List (List Char)) (p : Pipeline) : HM (Bool × Pipeline) := do
  let total := args.foldl (fun t a => P.sz (t + P.sz (a.length + 2))) 0
  match ← malloc Char (P.sz (total + 1)) with
  | none => pure (false, p)
  | some combined => do
    let text ← use [combined.id] (joinArgs args combined.cells >>= cstr)
    let r ← parsePieces P L (strtok ',' text) p
    free combined.id
    pure r

end FlatCV.Model
