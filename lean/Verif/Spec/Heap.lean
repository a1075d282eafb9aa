/-
The effect of a call on the set of live blocks.
-/
import Verif.Core.Mem

namespace FlatCV.Spec

/-- Between `hp` and `h'` the blocks `new` have been allocated, and no block live in `hp` has been released: every other block
allocated in between has been released, once. -/
def HeapEffect (hp h' : Heap) (new : List Nat) : Prop :=
  h'.live.Perm (new ++ hp.live) ∧ h'.fails = hp.fails ∧ hp.next ≤ h'.next ∧ ∀ i ∈ new, hp.next ≤ i ∧ i < h'.next

/-- No allocation made between `hp` and `h'` has failed. -/
def NoneFailed (hp h' : Heap) : Prop := ∀ i, hp.next ≤ i → i < h'.next → hp.fails i = false

/-- What a call has done when it has returned `r`: either a block, which is then the only new one, and all its allocations
have succeeded; or NULL, and there is no new block. -/
def CallEffect {α : Type} (hp h' : Heap) : Option (Buf α) → Prop
  | some b => HeapEffect hp h' [b.id] ∧ NoneFailed hp h'
  | none => HeapEffect hp h' []

/-- The call never releases a block twice, never releases or touches a block that is not live, and if it returns then with the
effect `Q`. -/
def HeapSafe {α : Type} (m : HM α) (hp : Heap) (Q : α → Heap → Prop) : Prop :=
  m hp ≠ .error .badFree ∧ m hp ≠ .error .useAfterFree ∧ ∀ r h', m hp = .ok (r, h') → Q r h'

/-- Whatever the state of the heap and whichever allocations fail, the call uses the heap correctly, and whenever it returns
the only new block is the one it returns; if it returns NULL or if any of its allocations has failed there is none. -/
def Tidy {α : Type} (m : HM (Option (Buf α))) : Prop := ∀ hp, HeapSafe m hp fun r h' => CallEffect hp h' r

/-- The same for functions that also report a size. -/
def TidyWith {α β : Type} (m : HM (Option (Buf α) × β)) : Prop := ∀ hp, HeapSafe m hp fun r h' => CallEffect hp h' r.1

/-- A call that has returned `r` has left besides its result at most `k` new blocks; with `k = 0` a result also means that no
allocation has failed. -/
def Left {α : Type} (k : Nat) (hp h' : Heap) (r : Option (Buf α)) : Prop := ∃ lost : List Nat, lost.length ≤ k ∧ match r with
  | none => HeapEffect hp h' lost
  | some b => HeapEffect hp h' (b.id :: lost) ∧ (k = 0 → NoneFailed hp h')

/-- The call uses the heap correctly, and when it returns there are besides its result at most `k` new blocks. -/
def Leaves {α β : Type} (k : Nat) (m : HM (Option (Buf α) × β)) (hp : Heap) : Prop :=
  HeapSafe m hp fun r h' => Left k hp h' r.1

end FlatCV.Spec
