/-
ITU-T T.81, annex G: successive approximation of the coefficients in progressive JPEG files.
-/
import Verif.Spec.Jpeg
import Mathlib.Logic.Function.Basic

namespace FlatCV.Jpg

/-- T.81, G.1.2.1: a coefficient without the `k` low bits of its magnitude. -/
def coarse (k : Nat) (c : Int) : Int := if 0 ≤ c then ((c.natAbs / 2 ^ k * 2 ^ k : Nat) : Int) else -((c.natAbs / 2 ^ k * 2 ^ k : Nat) : Int)

/-- T.81, G.1.2.1: the first coefficient of a block without its `k` low bits, by an arithmetic shift. -/
def coarseDc (k : Nat) (c : Int) : Int := c / 2 ^ k * 2 ^ k

/-- The coefficients of the band from `ss` to `se`. -/
def band (C : Nat → Int) (ss se : Nat) : List Int := (List.range (se + 1 - ss)).map fun i => C (ss + i)

/-- The coefficient is not zero without its `k + 1` low bits; it is corrected by one bit. -/
def old (k : Nat) (c : Int) : Bool := decide (2 ^ (k + 1) ≤ c.natAbs)

/-- The coefficient is still zero without its `k` low bits. -/
def small (k : Nat) (c : Int) : Bool := decide (c.natAbs < 2 ^ k)

/-- T.81, G.1.2.3: the correction bits. -/
def corrections (k : Nat) (cs : List Int) : List Bool := (cs.filter (old k)).map fun c => decide (c.natAbs / 2 ^ k % 2 = 1)

/-- T.81, G.1.2.3: the bits `b`, up to `rest`, are the code of the bit `k` of the coefficients `cs`; the blocks that follow are in a run of
`e` ended blocks. -/
inductive Refined (t : Code) (k : Nat) : List Int → Nat → List Bool → List Bool → Prop
  /-- All coefficients are coded. -/
  | done (b : List Bool) : Refined t k [] 0 b b
  /-- A coefficient `c` that has not been coded before, after `r` coefficients that remain zero. -/
  | fresh {seg cs : List Int} {c : Int} {e : Nat} {b b' rest : List Bool} (hs : symbol t b = some (16 * seg.countP (small k) + 1, decide (0 < c) :: (corrections k seg ++ b')))
      (hseg : ∀ a ∈ seg, old k a = true ∨ small k a = true) (h1 : old k c = false) (h2 : small k c = false) (hcs : Refined t k cs e b' rest) : Refined t k (seg ++ c :: cs) e b rest
  /-- Sixteen coefficients that remain zero. -/
  | zeros {seg cs : List Int} {c : Int} {e : Nat} {b b' rest : List Bool} (hs : symbol t b = some (0xF0, corrections k seg ++ b'))
      (hn : seg.countP (small k) = 15) (hseg : ∀ a ∈ seg, old k a = true ∨ small k a = true) (hc : small k c = true) (hcs : Refined t k cs e b' rest) : Refined t k (seg ++ c :: cs) e b rest
  /-- No further coefficient that has not been coded before, here and in the next `2 ^ r - 1 + x` blocks. -/
  | ended {cs : List Int} {r x : Nat} {b b' rest : List Bool} (hr : r < 15) (hs : symbol t b = some (16 * r, b')) (hx : receive r b' = some (x, corrections k cs ++ rest)) (hne : cs ≠ [])
      (hcs : ∀ a ∈ cs, old k a = true ∨ small k a = true) : Refined t k cs (2 ^ r - 1 + x) b rest

/-- T.81, G.1.2.2: the bits `b`, up to `rest`, are the code of the coefficients `cs` without their `k` low bits; the blocks that follow are in
a run of `e` ended blocks. -/
inductive First (t : Code) (k : Nat) : List Int → Nat → List Bool → List Bool → Prop
  /-- All coefficients are coded. -/
  | done (b : List Bool) : First t k [] 0 b b
  /-- A coefficient `c` after some that are zero. -/
  | value {seg cs : List Int} {c : Int} {s x e : Nat} {b b1 b' rest : List Bool} (hs : symbol t b = some (16 * seg.length + s, b1)) (h1 : 1 ≤ s) (h15 : s ≤ 15) (hx : receive s b1 = some (x, b'))
      (hv : extend x s * 2 ^ k = coarse k c) (hseg : ∀ a ∈ seg, small k a = true) (hcs : First t k cs e b' rest) : First t k (seg ++ c :: cs) e b rest
  /-- Sixteen coefficients that are zero. -/
  | zeros {seg cs : List Int} {e : Nat} {b b' rest : List Bool} (hs : symbol t b = some (0xF0, b')) (hn : seg.length = 16) (hseg : ∀ a ∈ seg, small k a = true)
      (hcs : First t k cs e b' rest) : First t k (seg ++ cs) e b rest
  /-- Only zeros, here and in the next `2 ^ r + x - 1` blocks. -/
  | ended {cs : List Int} {r x : Nat} {b b' rest : List Bool} (hr : r < 15) (hs : symbol t b = some (16 * r, b')) (hx : receive r b' = some (x, rest)) (hne : cs ≠ [])
      (hcs : ∀ a ∈ cs, small k a = true) : First t k cs (2 ^ r + x - 1) b rest

/-- A block of a first scan; `e` blocks, this one included, and then `e'` are left of a run of ended blocks. -/
def FirstBlock (t : Code) (k : Nat) (cs : List Int) (e e' : Nat) (b b' : List Bool) : Prop :=
  if e = 0 then First t k cs e' b b' else e' = e - 1 ∧ b = b' ∧ ∀ a ∈ cs, small k a = true

/-- A block of a further scan. -/
def RefinedBlock (t : Code) (k : Nat) (cs : List Int) (e e' : Nat) (b b' : List Bool) : Prop :=
  if e = 0 then Refined t k cs e' b b' else e' = e - 1 ∧ b = corrections k cs ++ b' ∧ ∀ a ∈ cs, old k a = true ∨ small k a = true

/-- The blocks of a scan, one after the other. -/
def Scan (B : List Int → Nat → Nat → List Bool → List Bool → Prop) : List (List Int) → Nat → List Bool → List Bool → Prop
  | [], _, b, rest => b = rest
  | c :: cs, e, b, rest => ∃ e' b', B c e e' b b' ∧ Scan B cs e' b' rest

/-- The bits of a scan of one band of coefficients: a first one, or one that adds the bit `k`. -/
def BandScan (t : Code) (isFirst : Bool) (k : Nat) (blocks : List (List Int)) (b rest : List Bool) : Prop :=
  Scan (if isFirst then FirstBlock t k else RefinedBlock t k) blocks 0 b rest

/-- T.81, G.1.2.1: the first coefficient `c` of a block: the difference from the prediction, or the next bit; `pred'` is the next prediction. -/
def DcCode (t : Code) (isFirst : Bool) (k : Nat) (pred c pred' : Int) (b b' : List Bool) : Prop :=
  if isFirst then (∃ s x b1, symbol t b = some (s, b1) ∧ s ≤ 15 ∧ receive s b1 = some (x, b') ∧ pred + (if s = 0 then 0 else extend x s) = c / 2 ^ k) ∧ pred' = c / 2 ^ k
  else b = decide (c / 2 ^ k % 2 = 1) :: b' ∧ pred' = pred

/-- The bits of a scan of first coefficients, for blocks with their components and places; each component has its code and its prediction. -/
def DcScan (T : Nat → Code) (isFirst : Bool) (k : Nat) (C : Nat → Nat → Nat → Int) : List (Nat × Nat × Nat) → (Nat → Int) → List Bool → List Bool → Prop
  | [], _, b, rest => b = rest
  | (n, x, y) :: l, pr, b, rest => ∃ v b', DcCode (T n) isFirst k (pr n) (C n x y) v b b' ∧ DcScan T isFirst k C l (Function.update pr n v) b' rest

/-- T.81, A.2.3: the order of the blocks in a scan of the components `comps`, which have `h` times `v` blocks in each of `mx` times `my` MCUs. -/
def interleaved (comps : List Nat) (h v : Nat → Nat) (mx my : Nat) : List (Nat × Nat × Nat) :=
  (List.range my).flatMap fun j => (List.range mx).flatMap fun i => comps.flatMap fun n => (List.range (v n)).flatMap fun y => (List.range (h n)).map fun x => (n, i * h n + x, j * v n + y)

/-- T.81, A.2.2: the order of the blocks in a scan of one component. -/
def rowByRow (n bw bh : Nat) : List (Nat × Nat × Nat) := (List.range bh).flatMap fun y => (List.range bw).map fun x => (n, x, y)

end FlatCV.Jpg
