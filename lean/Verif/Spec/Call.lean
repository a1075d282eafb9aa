/-
How callers use the library: valid images, and calls whose result is passed on.
-/
import Verif.Core.Mem

namespace FlatCV

/-- A caller-supplied image: nonzero 32-bit dimensions and exactly `w*h*ch` bytes, an object
whose size fits `size_t` (as every C object does). -/
structure Img (P : Plat) (w h ch : Nat) (d : List UInt8) : Prop where
  w_pos : 0 < w
  h_pos : 0 < h
  w_u32 : IsU32 w
  h_u32 : IsU32 h
  len : d.length = w * h * ch
  size : d.length ≤ P.szMax

/-- On every heap the call returns `out` (fully initialised) in a fresh block, or NULL
because an allocation failed; nothing leaks and nothing undefined happens. -/
def Yields (m : HM (Option (Buf UInt8))) (out : List UInt8) : Prop :=
  ∀ hp, Returns m hp fun c => c = out.map some

/-- For functions that also report dimensions: the call stores `ow × oh` and returns `out`
(fully initialised) in a fresh block, or NULL because an allocation failed. -/
def YieldsDims (m : HM (Option (Buf UInt8) × Option (Nat × Nat))) (ow oh : Nat)
    (out : List UInt8) : Prop :=
  ∀ hp, HOk m hp fun r h' => r.2 = some (ow, oh) ∧ match r.1 with
    | none => OutOfMemory hp h'
    | some b => FreshResult hp h' b ∧ b.cells = out.map some

/-- Calling `m` and then `k` on the bytes it returned yields `out`. -/
def YieldsThen (m : HM (Option (Buf UInt8))) (k : List UInt8 → HM (Option (Buf UInt8)))
    (out : List UInt8) : Prop :=
  ∀ hp, Returns m hp fun c => ∃ e : List UInt8, c = e.map some ∧ Yields (k e) out

/-- A call that returned a non-NULL result from `Yields` returned exactly `out`. -/
theorem Yields.result {m : HM (Option (Buf UInt8))} {out : List UInt8} (hy : Yields m out)
    {hp hp' : Heap} {b : Buf UInt8} (e : m hp = .ok (some b, hp')) :
    b.cells = out.map some := by
  obtain ⟨r, h', e', hq⟩ := hy hp
  rw [e] at e'
  cases e'
  exact hq.2

/-- If no allocation fails the call does return a result. -/
theorem Yields.succeeds {m : HM (Option (Buf UInt8))} {out : List UInt8} (hy : Yields m out)
    {hp : Heap} (hf : ∀ i, hp.fails i = false) :
    ∃ b hp', m hp = .ok (some b, hp') ∧ b.cells = out.map some := by
  obtain ⟨r, h', e', hq⟩ := hy hp
  cases r with
  | none =>
    obtain ⟨_, _, _, i, _, _, hi⟩ := hq
    rw [hf i] at hi
    cases hi
  | some b => exact ⟨b, h', e', hq.2⟩

theorem Yields.andThen {m : HM (Option (Buf UInt8))} {k : List UInt8 → HM (Option (Buf UInt8))}
    {e out : List UInt8} (h1 : Yields m e) (h2 : Yields (k e) out) : YieldsThen m k out := by
  intro hp
  obtain ⟨r, h', e', hq⟩ := h1 hp
  refine ⟨r, h', e', ?_⟩
  cases r with
  | none => exact hq
  | some b => exact ⟨hq.1, e, hq.2, h2⟩

end FlatCV
