/-
Semantics of C used by the model, part 3: memory.

A block is a list of cells, `none` meaning "never written".  The heap records which block
identities are live.  `malloc` fails according to an arbitrary oracle indexed by the
allocation number, so a statement for all heaps covers all patterns of failures.
-/
import Verif.Core.Num

namespace FlatCV

/-- Contents of a block of elements of type `α`; `none` is an uninitialised element. -/
abbrev Cells (α : Type) := List (Option α)

/-- Read element `i` of a block. -/
def rd {α : Type} (s : Cells α) (i : Nat) : CM α :=
  match s[i]? with
  | none => .error .oobRead
  | some none => .error .uninitRead
  | some (some v) => .ok v

/-- Write element `i` of a block. -/
def wr {α : Type} (s : Cells α) (i : Nat) (v : α) : CM (Cells α) :=
  if i < s.length then .ok (s.set i (some v)) else .error .oobWrite

/-- Read element `i` of a fully initialised constant block (a caller-supplied input). -/
def rdIn {α : Type} (d : List α) (i : Nat) : CM α :=
  match d[i]? with
  | none => .error .oobRead
  | some v => .ok v

/-- Write into a caller-supplied, fully initialised block. -/
def wrIn {α : Type} (d : List α) (i : Nat) (v : α) : CM (List α) :=
  if i < d.length then .ok (d.set i v) else .error .oobWrite

/-- Signed-index variants: a negative index is out of bounds. -/
def rdZ {α : Type} (s : Cells α) (i : Int) : CM α :=
  if 0 ≤ i then rd s i.toNat else .error .oobRead
def wrZ {α : Type} (s : Cells α) (i : Int) (v : α) : CM (Cells α) :=
  if 0 ≤ i then wr s i.toNat v else .error .oobWrite
def rdInZ {α : Type} (d : List α) (i : Int) : CM α :=
  if 0 ≤ i then rdIn d i.toNat else .error .oobRead

/-- `memcpy(dst + di, src + si, n)` from a constant input. -/
def memcpyIn {α : Type} (dst : Cells α) (di : Nat) (src : List α) (si n : Nat) :
    CM (Cells α) :=
  forN n dst fun k s => do
    let v ← rdIn src (si + k)
    wr s (di + k) v

/-- `memset(p, v, n)`. -/
def memset {α : Type} (s : Cells α) (n : Nat) (v : α) : CM (Cells α) :=
  if n ≤ s.length then .ok (List.replicate n (some v) ++ s.drop n) else .error .oobWrite

/-- Pass a block as a `const` input of another function.  The callee's reads of never written
elements are undefined behaviour; the model is stricter and already faults here. -/
def asInput {α : Type} (s : Cells α) : CM (List α) :=
  match s.mapM id with
  | some l => .ok l
  | none => .error .uninitRead

/-- A heap block. -/
structure Buf (α : Type) where
  id : Nat
  cells : Cells α

/-- The heap: next block number, live blocks, and the allocation-failure oracle. -/
structure Heap where
  next : Nat
  live : List Nat
  fails : Nat → Bool

/-- Live blocks have been allocated. -/
def Heap.WF (h : Heap) : Prop := ∀ i, i ∈ h.live → i < h.next

/-- A computation that may allocate and free. -/
def HM (α : Type) := Heap → Except HFault (α × Heap)

instance : Monad HM where
  pure a := fun h => .ok (a, h)
  bind m f := fun h => match m h with
    | .error e => .error e
    | .ok (a, h') => f a h'

/-- `malloc` of `n` elements, uninitialised; `none` is NULL. -/
def malloc (α : Type) (n : Nat) : HM (Option (Buf α)) := fun h =>
  if h.fails h.next then .ok (none, { h with next := h.next + 1 })
  else .ok (some ⟨h.next, List.replicate n none⟩,
            { h with next := h.next + 1, live := h.next :: h.live })

/-- `calloc` of `n` elements, all equal to the zero `z`. -/
def calloc {α : Type} (n : Nat) (z : α) : HM (Option (Buf α)) := fun h =>
  if h.fails h.next then .ok (none, { h with next := h.next + 1 })
  else .ok (some ⟨h.next, List.replicate n (some z)⟩,
            { h with next := h.next + 1, live := h.next :: h.live })

/-- `free` of a block. -/
def free (i : Nat) : HM Unit := fun h =>
  if i ∈ h.live then .ok ((), { h with live := h.live.erase i }) else .error .badFree

/-- `free(p)` where `p` may be NULL (then it has no effect). -/
def freeOpt {α : Type} (b : Option (Buf α)) : HM Unit :=
  match b with
  | none => pure ()
  | some b => free b.id

/-- Run code that accesses the blocks `ids`: all of them must be live. -/
def use {α : Type} (ids : List Nat) (c : CM α) : HM α := fun h =>
  if ∀ i ∈ ids, i ∈ h.live then
    match c with
    | .ok a => .ok (a, h)
    | .error e => .error (.comp e)
  else .error .useAfterFree

/-- Raise a fault. -/
def hfault {α : Type} (e : Fault) : HM α := fun _ => .error (.comp e)

/-- The shape of most library functions: allocate the result, fill it, return it. -/
def allocFill {α : Type} (n : Nat) (fill : Cells α → CM (Cells α)) : HM (Option (Buf α)) := do
  match ← malloc α n with
  | none => pure none
  | some b => do
    let c ← use [b.id] (fill b.cells)
    pure (some { b with cells := c })

/-- The shape `tmp = f(…); if (!tmp) return NULL; r = g(tmp, …); free(tmp); return r;`. -/
def callThenFree {α β : Type} (f : HM (Option (Buf α)))
    (g : List α → HM (Option (Buf β))) : HM (Option (Buf β)) := do
  match ← f with
  | none => pure none
  | some tmp => do
    let input ← use [tmp.id] (asInput tmp.cells)
    let r ← g input
    free tmp.id
    pure r

/-! ### What a library call promises about the heap -/

/-- `HOk m h Q`: from heap `h` the computation finishes without fault, with `Q result heap'`. -/
def HOk {α : Type} (m : HM α) (h : Heap) (Q : α → Heap → Prop) : Prop :=
  ∃ a h', m h = .ok (a, h') ∧ Q a h'

/-- The call returned NULL and left no trace except failed or released allocations, and some
allocation requested by the call did fail. -/
def OutOfMemory (h h' : Heap) : Prop :=
  h'.live = h.live ∧ h'.fails = h.fails ∧ h.next ≤ h'.next ∧
    ∃ i, h.next ≤ i ∧ i < h'.next ∧ h.fails i = true

/-- The call returned the fresh block `b`; nothing else became live or dead. -/
def FreshResult {α : Type} (h h' : Heap) (b : Buf α) : Prop :=
  h'.live = b.id :: h.live ∧ h'.fails = h.fails ∧ h.next ≤ b.id ∧ b.id < h'.next

/-- `Returns m h Q`: the call runs without fault from heap `h`; either it returns NULL because
an allocation failed, and leaks nothing, or it returns one fresh block with contents in `Q`
and nothing else has changed on the heap. -/
def Returns {α : Type} (m : HM (Option (Buf α))) (h : Heap) (Q : Cells α → Prop) : Prop :=
  HOk m h fun r h' => match r with
    | none => OutOfMemory h h'
    | some b => FreshResult h h' b ∧ Q b.cells

/-- `Rejects m h`: the call returns NULL and does not touch the heap at all. -/
def Rejects {α : Type} (m : HM (Option α)) (h : Heap) : Prop := m h = .ok (none, h)

/-- A heap in which no allocation fails. -/
def Heap.fresh : Heap := ⟨0, [], fun _ => false⟩

end FlatCV
