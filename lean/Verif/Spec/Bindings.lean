/-
What a user of the Haskell bindings expects of the vectors they get.
-/
import Verif.Spec.Call
import Verif.Spec.Heap
import Verif.Model.Bindings

namespace FlatCV.Spec

open Model Model.Hs

/-- The vector has the elements `out`: it has this length and every element can be read. -/
def Shows (v : Vec) (out : List UInt8) : Prop := v.len = out.length ∧ ∀ i (hi : i < out.length), v.read i = .ok out[i]

/-- Whenever the call returns a vector it has `n` elements, all of which can be read. -/
def Readable (n : Nat) (m : HM (Option Vec)) : Prop := ∀ hp v h', m hp = .ok (some v, h') → ∃ out, out.length = n ∧ Shows v out

/-- Whenever the call returns a size and a vector, the vector has `ch` bytes for every pixel, all of which can be read.  (Sizes
of 4 GiB and more do not fit the length.) -/
def ReadableSized (ch : Nat) (m : HM (Option (Nat × Nat × Vec))) : Prop := ∀ hp w h v h', m hp = .ok (some (w, h, v), h') →
  w * h * ch < 4294967296 → ∃ out, out.length = w * h * ch ∧ Shows v out

/-- Whatever the heap, provided that memory does not run out, the call returns a vector with an element that lies outside the
memory the C function has allocated. -/
def Exposes (m : HM (Option Vec)) : Prop := ∀ hp : Heap, (∀ i, hp.fails i = false) →
  ∃ v h', m hp = .ok (some v, h') ∧ ∃ i : Nat, (i : Int) < v.len ∧ v.read i = .error .oobRead

/-- On every heap the call returns a vector with the elements `out`, whose memory is its own, or raises an exception because
memory has run out; nothing is lost and nothing undefined happens. -/
def Hands (m : HM (Option Vec)) (out : List UInt8) : Prop := ∀ hp, HOk m hp fun r h' => match r with
  | none => OutOfMemory hp h'
  | some v => FreshResult hp h' v.block ∧ Shows v out

/-- The same with a size. -/
def HandsSized {α : Type} (m : HM (Option (α × α × Vec))) (w h : α) (out : List UInt8) : Prop := ∀ hp, HOk m hp fun r h' => match r with
  | none => OutOfMemory hp h'
  | some (w', h'', v) => w' = w ∧ h'' = h ∧ FreshResult hp h' v.block ∧ Shows v out

/-- The call uses the C heap correctly, and when it has returned the only new block is the one the vector owns; after an
exception there is none. -/
def Managed (m : HM (Option Vec)) : Prop := ∀ hp, HeapSafe m hp fun r h' => HeapEffect hp h' (r.map (·.block.id)).toList

/-- The same with a size. -/
def ManagedSized {α : Type} (m : HM (Option (α × α × Vec))) : Prop :=
  ∀ hp, HeapSafe m hp fun r h' => HeapEffect hp h' (r.map (·.2.2.block.id)).toList

/-- The struct of eight doubles as C lays it out (include/1_types.h:12-17). -/
def cornersLayout (c : Corners Dbl) : List Dbl := [c.tl_x, c.tl_y, c.tr_x, c.tr_y, c.br_x, c.br_y, c.bl_x, c.bl_y]

/-- The struct of nine doubles as C lays it out (include/1_types.h:19-23). -/
def matrixLayout (m : Mat Dbl) : List Dbl := [m.m00, m.m01, m.m02, m.m10, m.m11, m.m12, m.m20, m.m21, m.m22]

/-- An array of structs of two doubles. -/
def pointsLayout (ms : List (Dbl × Dbl)) : List Dbl := ms.flatMap fun p => [p.1, p.2]

end FlatCV.Spec
