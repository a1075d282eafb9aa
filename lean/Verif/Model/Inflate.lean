/-
Model of the zlib decoder in `include/stb_image.h`, as used by the PNG decoder: the input is a block of known length, the output
buffer may grow.

Simplifications: a pointer into a block is an index, and sums of pointers are compared as integers.  The result of `realloc` keeps
the identity of the block; whether the `k`-th `realloc` succeeds is given by a function.  `stbi__err` only returns 0.
-/
import Verif.Core.Mem
import Verif.Core.Num
import Verif.Model.Foerstner

namespace FlatCV.Model

/-! ### Huffman tables -/

/-- stb_image.h:4096-4105 `stbi__zhuffman`. -/
structure ZHuff where
  fast : Cells Nat
  firstcode : Cells Nat
  maxcode : Cells Nat
  firstsymbol : Cells Nat
  size : Cells Nat
  value : Cells Nat

/-- A local variable of that type. -/
def ZHuff.fresh : ZHuff :=
  ⟨List.replicate 512 none, List.replicate 16 none, List.replicate 17 none, List.replicate 16 none, List.replicate 288 none, List.replicate 288 none⟩

/-- stb_image.h:4107-4114 `stbi__bitreverse16`. -/
def bitreverse16 (n : Nat) : Nat :=
  let n := ((n &&& 0xAAAA) >>> 1) ||| ((n &&& 0x5555) <<< 1)
  let n := ((n &&& 0xCCCC) >>> 2) ||| ((n &&& 0x3333) <<< 2)
  let n := ((n &&& 0xF0F0) >>> 4) ||| ((n &&& 0x0F0F) <<< 4)
  ((n &&& 0xFF00) >>> 8) ||| ((n &&& 0x00FF) <<< 8)

/-- stb_image.h:4116-4122 `stbi__bit_reverse`, with its assertion. -/
def bit_reverse (v bits : Nat) : CM Nat :=
  if bits ≤ 16 then .ok (bitreverse16 v >>> (16 - bits)) else .error .exit

/-- stb_image.h:4132-4134: how often each length occurs. -/
def countSizes (lens : Cells Nat) (num : Nat) : CM (List Nat) := do
  let sizes ← forN num (List.replicate 17 0) fun i sizes => do
    let s ← rd lens i
    let c ← rdIn sizes s
    wrIn sizes s (c + 1)
  wrIn sizes 0 0

/-- The variables of the loop at 4139-4149. -/
structure CodeState where
  code : Nat
  k : Nat
  next : Cells Nat
  z : ZHuff
  ok : Bool

/-- stb_image.h:4140-4149: the first code of length `i`. -/
def codeStep (sizes : List Nat) (i : Nat) (t : CodeState) : CM (CodeState × Bool) := do
  let next ← wr t.next i t.code
  let firstcode ← wr t.z.firstcode i (t.code % 65536)
  let firstsymbol ← wr t.z.firstsymbol i (t.k % 65536)
  let c ← rdIn sizes i
  let code := t.code + c
  if c ≠ 0 ∧ 2 ^ i < code then pure ({ t with ok := false }, true)
  else do
    let m ← i32 ((code * 2 ^ (16 - i) : Nat) : Int)
    let maxcode ← wr t.z.maxcode i m.toNat
    pure (⟨code * 2, t.k + c, next, { t.z with firstcode := firstcode, firstsymbol := firstsymbol, maxcode := maxcode }, true⟩, false)

/-- stb_image.h:4158-4162: the entries of the fast table for one code. -/
def fillFast (fast : Cells Nat) (j s fastv : Nat) : CM (Cells Nat) := do
  let r ← whileFuel 513 (fast, j) fun t =>
    if t.2 < 512 then do
      let fast ← wr t.1 t.2 fastv
      pure ((fast, t.2 + 2 ^ s), false)
    else pure (t, true)
  pure r.1

/-- stb_image.h:4157-4163: the same, if the code is short enough. -/
def fastEntries (fast : Cells Nat) (n s fastv : Nat) : CM (Cells Nat) :=
  if s ≤ 9 then do
    let j ← bit_reverse n s
    fillFast fast j s fastv
  else pure fast

/-- stb_image.h:4151-4166: one symbol. -/
def symbolStep (lens : Cells Nat) (i : Nat) (t : Cells Nat × ZHuff) : CM (Cells Nat × ZHuff) := do
  let s ← rd lens i
  if s = 0 then pure t
  else do
    let n ← rd t.1 s
    let fc ← rd t.2.firstcode s
    let fs ← rd t.2.firstsymbol s
    let c : Int := (n : Int) - fc + fs
    if c < 0 then .error .oobWrite
    else do
      let fastv := (s * 512 ||| i) % 65536
      let size ← wr t.2.size c.toNat (s % 256)
      let value ← wr t.2.value c.toNat (i % 65536)
      let fast ← fastEntries t.2.fast n s fastv
      let next ← wr t.1 s (n + 1)
      pure (next, { t.2 with size := size, value := value, fast := fast })

/-- stb_image.h:4137-4138: no length occurs more often than possible. -/
def sizesOk (sizes : List Nat) : CM Bool :=
  forN 15 true fun i ok => do
    let c ← rdIn sizes (i + 1)
    pure (ok && decide (c ≤ 2 ^ (i + 1)))

/-- stb_image.h:4124-4168 `stbi__zbuild_huffman`: the tables, or `none` if it returns 0. -/
def zbuild_huffman (z : ZHuff) (lens : Cells Nat) (num : Nat) : CM (Option ZHuff) := do
  let fast ← memset z.fast 512 0
  let sizes ← countSizes lens num
  let good ← sizesOk sizes
  if good then do
    let t ← forBreak 15 1 ⟨0, 0, List.replicate 16 none, { z with fast := fast }, true⟩ (codeStep sizes)
    if t.ok then do
      let maxcode ← wr t.z.maxcode 16 0x10000
      let r ← forN num (t.next, { t.z with maxcode := maxcode }) (symbolStep lens)
      pure (some r.2)
    else pure none
  else pure none

/-! ### Bits -/

/-- stb_image.h:4176-4189 `stbi__zbuf`, without the tables; `grows` and `count`: which calls of `realloc` succeed, and how many
there were. -/
structure ZBuf where
  zin : List UInt8
  pos : Nat
  numBits : Int
  hit : Bool
  code : Nat
  out : Cells UInt8
  zout : Nat
  grows : Nat → Bool
  count : Nat

/-- stb_image.h:4191-4194 `stbi__zeof`. -/
def ZBuf.eof (z : ZBuf) : Bool := decide (z.zin.length ≤ z.pos)

/-- stb_image.h:4196-4199 `stbi__zget8`. -/
def zget8 (z : ZBuf) : CM (UInt8 × ZBuf) :=
  if z.eof then pure (0, z)
  else do
    let b ← rdIn z.zin z.pos
    pure (b, { z with pos := z.pos + 1 })

/-- `1U << n`; a shift by a negative amount or by more than 31 is undefined. -/
def shl1 (n : Int) : CM Nat := if 0 ≤ n ∧ n < 32 then .ok (1 <<< n.toNat) else .error .signedOverflow

/-- stb_image.h:4203-4210: one round of the loop. -/
def fillStep (z : ZBuf) : CM (ZBuf × Bool) := do
  let m ← shl1 z.numBits
  if m ≤ z.code then pure ({ z with pos := z.zin.length }, true)
  else do
    let (b, z) ← zget8 z
    let z := { z with code := (z.code ||| (b.toNat <<< z.numBits.toNat)) % 4294967296, numBits := z.numBits + 8 }
    pure (z, !decide (z.numBits ≤ 24))

/-- stb_image.h:4201-4211 `stbi__fill_bits`. -/
def fill_bits (z : ZBuf) : CM ZBuf := whileFuel 5 z fillStep

/-- `n` bits leave the buffer. -/
def ZBuf.drop (z : ZBuf) (n : Nat) : ZBuf := { z with code := z.code >>> n, numBits := z.numBits - n }

/-- stb_image.h:4213-4221 `stbi__zreceive`. -/
def zreceive (z : ZBuf) (n : Nat) : CM (Nat × ZBuf) := do
  let z ← if z.numBits < n then fill_bits z else pure z
  pure (z.code &&& (1 <<< n - 1), z.drop n)

/-- stb_image.h:4223-4241 `stbi__zhuffman_decode_slowpath`; `none` is -1. -/
def decode_slowpath (z : ZBuf) (h : ZHuff) : CM (Option Nat × ZBuf) := do
  let k ← bit_reverse z.code 16
  let s ← whileFuel 8 10 fun s => do
    let m ← rd h.maxcode s
    if k < m then pure (s, true) else pure (s + 1, false)
  if 16 ≤ s then pure (none, z)
  else do
    let fc ← rd h.firstcode s
    let fs ← rd h.firstsymbol s
    let b : Int := ((k >>> (16 - s) : Nat) : Int) - fc + fs
    if 288 ≤ b then pure (none, z)
    else if b < 0 then .error .oobRead
    else do
      let size ← rd h.size b.toNat
      if size ≠ s then pure (none, z)
      else do
        let v ← rd h.value b.toNat
        pure (some v, z.drop s)

/-- stb_image.h:4246-4262: more bits; the boolean says whether decoding goes on. -/
def moreBits (z : ZBuf) : CM (Bool × ZBuf) :=
  if z.numBits < 16 then
    if z.eof then
      if z.hit then pure (false, z) else pure (true, { z with hit := true, numBits := z.numBits + 16 })
    else do
      let z ← fill_bits z
      pure (true, z)
  else pure (true, z)

/-- stb_image.h:4243-4271 `stbi__zhuffman_decode`; `none` is -1. -/
def zhuffman_decode (z : ZBuf) (h : ZHuff) : CM (Option Nat × ZBuf) := do
  let (more, z) ← moreBits z
  if more then do
    let b ← rd h.fast (z.code &&& 511)
    if b ≠ 0 then pure (some (b &&& 511), z.drop (b >>> 9)) else decode_slowpath z h
  else pure (none, z)

/-! ### Output -/

/-- stb_image.h:4281-4284: the new size of the buffer; `none` if it would be too large. -/
def growLimit (need limit : Nat) : CM (Option Nat) := do
  let r ← whileFuel 34 (limit, true) fun t =>
    if t.1 < need then
      if 2147483647 < t.1 then pure ((t.1, false), true) else pure ((t.1 * 2, true), false)
    else pure (t, true)
  pure (if r.2 then some r.1 else none)

/-- stb_image.h:4273-4293 `stbi__zexpand`. -/
def zexpand (z : ZBuf) (n : Nat) : CM (Bool × ZBuf) := do
  let cur := z.zout % 4294967296
  let limit := z.out.length % 4294967296
  if 4294967295 - cur < n then pure (false, z)
  else do
    match ← growLimit (cur + n) limit with
    | none => pure (false, z)
    | some l =>
      if z.grows z.count then
        pure (true, { z with out := z.out ++ List.replicate (l - limit) none, zout := cur, count := z.count + 1 })
      else pure (false, { z with count := z.count + 1 })

/-- 4316-4321, 4342-4345: room for `n` more bytes. -/
def room (z : ZBuf) (n : Nat) : CM (Bool × ZBuf) :=
  if z.out.length < z.zout + n then zexpand z n else pure (true, z)

/-! ### Blocks -/

/-- stb_image.h:4295-4298. -/
def zlength_base : List Nat :=
  [3, 4, 5, 6, 7, 8, 9, 10, 11, 13, 15, 17, 19, 23, 27, 31, 35, 43, 51, 59, 67, 83, 99, 115, 131, 163, 195, 227, 258, 0, 0]

/-- stb_image.h:4300-4301. -/
def zlength_extra : List Nat :=
  [0, 0, 0, 0, 0, 0, 0, 0, 1, 1, 1, 1, 2, 2, 2, 2, 3, 3, 3, 3, 4, 4, 4, 4, 5, 5, 5, 5, 0, 0, 0]

/-- stb_image.h:4303-4304. -/
def zdist_base : List Nat :=
  [1, 2, 3, 4, 5, 7, 9, 13, 17, 25, 33, 49, 65, 97, 129, 193, 257, 385, 513, 769, 1025, 1537, 2049, 3073, 4097, 6145, 8193, 12289, 16385,
   24577, 0, 0]

/-- stb_image.h:4306-4307; the last two elements are not in the list and therefore 0. -/
def zdist_extra : List Nat :=
  [0, 0, 0, 0, 1, 1, 2, 2, 3, 3, 4, 4, 5, 5, 6, 6, 7, 7, 8, 8, 9, 9, 10, 10, 11, 11, 12, 12, 13, 13, 0, 0]

/-- A base value and its extra bits (4334-4335, 4338-4339). -/
def baseExtra (base extra : List Nat) (i : Nat) (z : ZBuf) : CM (Nat × ZBuf) := do
  let b ← rdIn base i
  let e ← rdIn extra i
  if e ≠ 0 then do
    let (k, z) ← zreceive z e
    pure (b + k, z)
  else pure (b, z)

/-- stb_image.h:4346-4352: copy `len` bytes from `dist` back; the special case of distance 1 reads one byte only. -/
def copyRun (out : Cells UInt8) (zout len dist : Nat) : CM (Cells UInt8) :=
  if dist = 1 then do
    let v ← rd out (zout - 1)
    forN len out fun k out => wr out (zout + k) v
  else
    forN len out fun k out => do
      let v ← rd out (zout - dist + k)
      wr out (zout + k) v

/-- How a round ends: go on, return 1, return 0. -/
inductive Ctl where
  | more
  | done
  | fail
deriving DecidableEq

/-- stb_image.h:4331-4353: a match, `sym` is the symbol for its length. -/
def matchStep (zd : ZHuff) (sym : Nat) (z : ZBuf) : CM (Ctl × ZBuf) := do
  let (len, z) ← baseExtra zlength_base zlength_extra (sym - 257) z
  let (d, z) ← zhuffman_decode z zd
  match d with
  | none => pure (.fail, z)
  | some d =>
    if 30 ≤ d then pure (.fail, z)
    else do
      let (dist, z) ← baseExtra zdist_base zdist_extra d z
      if z.zout < dist then pure (.fail, z)
      else do
        let (ok, z) ← room z len
        if ok then do
          let out ← copyRun z.out z.zout len dist
          pure (.more, { z with out := out, zout := z.zout + len })
        else pure (.fail, z)

/-- stb_image.h:4313-4355: one symbol of a block. -/
def huffStep (zl zd : ZHuff) (z : ZBuf) : CM (Ctl × ZBuf) := do
  let (s, z) ← zhuffman_decode z zl
  match s with
  | none => pure (.fail, z)
  | some s =>
    if s < 256 then do
      let (ok, z) ← room z 1
      if ok then do
        let out ← wr z.out z.zout (UInt8.ofNat s)
        pure (.more, { z with out := out, zout := z.zout + 1 })
      else pure (.fail, z)
    else if s = 256 then pure (if z.hit = true ∧ z.numBits < 16 then (.fail, z) else (.done, z))
    else if 286 ≤ s then pure (.fail, z)
    else matchStep zd s z

/-- A loop that ends when a round says so; the result says whether it ended with 1. -/
def ctlLoop (fuel : Nat) (z : ZBuf) (step : ZBuf → CM (Ctl × ZBuf)) : CM (Bool × ZBuf) := do
  let (c, z) ← whileFuel fuel ((.more, z) : Ctl × ZBuf) fun t => do
    let (c, z) ← step t.2
    pure ((c, z), decide (c ≠ .more))
  pure (decide (c = .done), z)

/-- stb_image.h:4309-4357 `stbi__parse_huffman_block`. -/
def parse_huffman_block (zl zd : ZHuff) (z : ZBuf) : CM (Bool × ZBuf) := ctlLoop 4294967297 z (huffStep zl zd)

/-- stb_image.h:4361. -/
def dezigzag : List Nat := [16, 17, 18, 0, 8, 7, 9, 6, 10, 5, 11, 4, 12, 3, 13, 2, 14, 1, 15]

/-- stb_image.h:4373-4376: the lengths of the codes for lengths. -/
def readCodeLengthSizes (hclen : Nat) (z : ZBuf) : CM (List Nat × ZBuf) :=
  forN hclen (List.replicate 19 0, z) fun i t => do
    let (s, z) ← zreceive t.2 3
    let d ← rdIn dezigzag i
    let l ← wrIn t.1 d (s % 256)
    pure (l, z)

/-- stb_image.h:4388-4398: what is repeated how often, for the symbols 16 to 18; `none` is an error. -/
def repeatOf (c n : Nat) (lencodes : Cells Nat) (z : ZBuf) : CM (Option (Nat × Nat) × ZBuf) :=
  if c = 16 then do
    let (k, z) ← zreceive z 2
    if n = 0 then pure (none, z)
    else do
      let f ← rd lencodes (n - 1)
      pure (some (f, k + 3), z)
  else if c = 17 then do
    let (k, z) ← zreceive z 3
    pure (some (0, k + 3), z)
  else if c = 18 then do
    let (k, z) ← zreceive z 7
    pure (some (0, k + 11), z)
  else pure (none, z)

/-- The variables of the loop at 4380-4402; `ok` is false after an error. -/
structure LenState where
  n : Nat
  codes : Cells Nat
  z : ZBuf
  ok : Bool

/-- stb_image.h:4381-4401: one symbol of the code for lengths. -/
def lenStep (h : ZHuff) (ntot : Nat) (t : LenState) : CM (LenState × Bool) := do
  if ntot ≤ t.n then pure (t, true)
  else do
    let (c, z) ← zhuffman_decode t.z h
    match c with
    | none => pure ({ t with z := z, ok := false }, true)
    | some c =>
      if 19 ≤ c then pure ({ t with z := z, ok := false }, true)
      else if c < 16 then do
        let codes ← wr t.codes t.n c
        pure (⟨t.n + 1, codes, z, true⟩, false)
      else do
        let (r, z) ← repeatOf c t.n t.codes z
        match r with
        | none => pure ({ t with z := z, ok := false }, true)
        | some (f, k) =>
          if ntot - t.n < k then pure ({ t with z := z, ok := false }, true)
          else do
            let codes ← forN k t.codes fun i codes => wr codes (t.n + i) f
            pure (⟨t.n + k, codes, z, true⟩, false)

/-- stb_image.h:4359-4407 `stbi__compute_huffman_codes`: the two tables, or `none` if it returns 0.  `zl` and `zd` are the tables of
the block before. -/
def compute_huffman_codes (zl zd : ZHuff) (z : ZBuf) : CM (Option (ZHuff × ZHuff) × ZBuf) := do
  let (a, z) ← zreceive z 5
  let (b, z) ← zreceive z 5
  let (c, z) ← zreceive z 4
  let hlit := a + 257
  let hdist := b + 1
  let ntot := hlit + hdist
  let (sizes, z) ← readCodeLengthSizes (c + 4) z
  match ← zbuild_huffman ZHuff.fresh (sizes.map some) 19 with
  | none => pure (none, z)
  | some h => do
    let t ← whileFuel 322 ⟨0, List.replicate 455 none, z, true⟩ (lenStep h ntot)
    if t.ok = true ∧ t.n = ntot then do
      match ← zbuild_huffman zl t.codes hlit with
      | none => pure (none, t.z)
      | some zl =>
        match ← zbuild_huffman zd (t.codes.drop hlit) hdist with
        | none => pure (none, t.z)
        | some zd => pure (some (zl, zd), t.z)
    else pure (none, t.z)

/-- stb_image.h:4417-4422: whole bytes that are in the bit buffer already. -/
def drainBits (z : ZBuf) : CM (Cells UInt8 × Nat × ZBuf) := do
  let (header, k, z) ← whileFuel 6 ((List.replicate 4 none, 0, z) : Cells UInt8 × Nat × ZBuf) fun t =>
    if 0 < t.2.2.numBits then do
      let header ← wr t.1 t.2.1 (UInt8.ofNat (t.2.2.code &&& 255))
      pure ((header, t.2.1 + 1, t.2.2.drop 8), false)
    else pure (t, true)
  pure (header, k, z)

/-- stb_image.h:4413-4414: the rest of the byte is discarded. -/
def alignBits (z : ZBuf) : CM ZBuf :=
  if (z.numBits % 8).toNat ≠ 0 then do
    let (_, z) ← zreceive z (z.numBits % 8).toNat
    pure z
  else pure z

/-- stb_image.h:4409-4436 `stbi__parse_uncompressed_block`. -/
def parse_uncompressed_block (z : ZBuf) : CM (Bool × ZBuf) := do
  let z ← alignBits z
  let (header, k, z) ← drainBits z
  if z.numBits < 0 then pure (false, z)
  else do
    let (header, z) ← forFrom k 4 (header, z) fun i t => do
      let (b, z) ← zget8 t.2
      let h ← wr t.1 i b
      pure (h, z)
    let h0 ← rd header 0
    let h1 ← rd header 1
    let h2 ← rd header 2
    let h3 ← rd header 3
    let len := h1.toNat * 256 + h0.toNat
    let nlen := h3.toNat * 256 + h2.toNat
    if nlen ≠ len ^^^ 0xffff then pure (false, z)
    else if z.zin.length < z.pos + len then pure (false, z)
    else do
      let (ok, z) ← room z len
      if ok then do
        let out ← memcpyIn z.out z.zout z.zin z.pos len
        pure (true, { z with out := out, pos := z.pos + len, zout := z.zout + len })
      else pure (false, z)

/-- stb_image.h:4438-4450 `stbi__parse_zlib_header`. -/
def parse_zlib_header (z : ZBuf) : CM (Bool × ZBuf) := do
  let (cmf, z) ← zget8 z
  let (flg, z) ← zget8 z
  pure (!z.eof && decide ((cmf.toNat * 256 + flg.toNat) % 31 = 0) && !flg.toNat.testBit 5 && decide (cmf.toNat % 16 = 8), z)

/-- stb_image.h:4452-4463. -/
def zdefault_length : List Nat := List.replicate 144 8 ++ List.replicate 112 9 ++ List.replicate 24 7 ++ List.replicate 8 8

/-- stb_image.h:4464-4467. -/
def zdefault_distance : List Nat := List.replicate 32 5

/-- The state between two blocks. -/
structure ZState where
  z : ZBuf
  zl : ZHuff
  zd : ZHuff

/-- stb_image.h:4496-4502: the tables of a compressed block. -/
def blockTables (type : Nat) (s : ZState) : CM (Option (ZHuff × ZHuff) × ZBuf) :=
  if type = 1 then do
    match ← zbuild_huffman s.zl (zdefault_length.map some) 288 with
    | none => pure (none, s.z)
    | some zl =>
      match ← zbuild_huffman s.zd (zdefault_distance.map some) 32 with
      | none => pure (none, s.z)
      | some zd => pure (some (zl, zd), s.z)
  else compute_huffman_codes s.zl s.zd s.z

/-- stb_image.h:4490-4504: a block after its header. -/
def blockBody (type : Nat) (s : ZState) : CM (Bool × ZState) :=
  if type = 0 then do
    let (ok, z) ← parse_uncompressed_block s.z
    pure (ok, { s with z := z })
  else if type = 3 then pure (false, s)
  else do
    let (t, z) ← blockTables type s
    match t with
    | none => pure (false, { s with z := z })
    | some (zl, zd) => do
      let (ok, z) ← parse_huffman_block zl zd z
      pure (ok, ⟨z, zl, zd⟩)

/-- stb_image.h:4488-4505: a block. -/
def blockStep (s : ZState) : CM (Ctl × ZState) := do
  let (final, z) ← zreceive s.z 1
  let (type, z) ← zreceive z 2
  let (ok, s) ← blockBody type { s with z := z }
  pure (if ok then (if final = 0 then .more else .done) else .fail, s)

/-- stb_image.h:4481-4508 `stbi__parse_zlib`; the number of rounds is limited by the length of the input. -/
def parse_zlib (z : ZBuf) (parse_header : Bool) : CM (Bool × ZBuf) := do
  let (ok, z) ← if parse_header then parse_zlib_header z else pure (true, z)
  if ok then do
    let (c, s) ← whileFuel (8 * z.zin.length + 2) ((.more, ⟨{ z with numBits := 0, code := 0, hit := false }, ZHuff.fresh, ZHuff.fresh⟩) : Ctl × ZState) fun t => do
      let (c, s) ← blockStep t.2
      pure ((c, s), decide (c ≠ .more))
    pure (decide (c = .done), s.z)
  else pure (false, z)

/-- stb_image.h:4542-4560 `stbi_zlib_decode_malloc_guesssize_headerflag` after its allocation: whether it succeeds and the state at the
end; the first `zout` bytes of the buffer are the result. -/
def zlib_decode (data : List UInt8) (initial : Nat) (grows : Nat → Bool) (parse_header : Bool) : CM (Bool × ZBuf) :=
  parse_zlib ⟨data, 0, 0, false, 0, List.replicate initial none, 0, grows, 0⟩ parse_header

end FlatCV.Model
