/-
Following the heap through a sequence of calls when no allocation fails.
-/
import Verif.Spec.Call
import Verif.Lemmas.HPart

namespace FlatCV

/-- Since heap `hp` the blocks `X` have become live, and nothing else has changed. -/
structure Track (hp h : Heap) (X : List Nat) : Prop where
  live : h.live.Perm (X ++ hp.live)
  fails : h.fails = hp.fails
  next : hp.next ≤ h.next

theorem Track.start (hp : Heap) : Track hp hp [] := ⟨List.Perm.refl _, rfl, le_refl _⟩

theorem Track.perm {hp h : Heap} {X Y : List Nat} (t : Track hp h X) (p : X.Perm Y) : Track hp h Y :=
  ⟨t.live.trans (p.append_right _), t.fails, t.next⟩

theorem Track.mem {hp h : Heap} {X : List Nat} (t : Track hp h X) {i : Nat} (hi : i ∈ X) : i ∈ h.live :=
  t.live.mem_iff.2 (List.mem_append_left _ hi)

/-- The computation finishes with `Q`, or it exits. -/
def OkOrExit {α : Type} (m : HM α) (hp : Heap) (Q : α → Heap → Prop) : Prop :=
  HOk m hp Q ∨ m hp = .error (.comp .exit)

theorem HOk.orExit {α : Type} {m : HM α} {hp : Heap} {Q : α → Heap → Prop} (h : HOk m hp Q) : OkOrExit m hp Q := Or.inl h

theorem OkOrExit.bind {α β : Type} {m : HM α} {f : α → HM β} {hp : Heap} {P : α → Heap → Prop} {Q : β → Heap → Prop}
    (hm : OkOrExit m hp P) (hf : ∀ a h', P a h' → OkOrExit (f a) h' Q) : OkOrExit (m >>= f) hp Q := by
  rcases hm with ⟨a, h', e, hp'⟩ | e
  · rcases hf a h' hp' with ⟨b, h'', e', q⟩ | e'
    · exact Or.inl ⟨b, h'', by rw [hm_bind, e]; exact e', q⟩
    · exact Or.inr (by rw [hm_bind, e]; exact e')
  · exact Or.inr (by rw [hm_bind, e])

theorem OkOrExit.pure {α : Type} {a : α} {hp : Heap} {Q : α → Heap → Prop} (h : Q a hp) :
    OkOrExit (Pure.pure a : HM α) hp Q := Or.inl ⟨a, hp, rfl, h⟩

theorem OkOrExit.exit {α : Type} {hp : Heap} {Q : α → Heap → Prop} : OkOrExit (hfault .exit : HM α) hp Q := Or.inr rfl

theorem OkOrExit.mono {α : Type} {m : HM α} {hp : Heap} {P Q : α → Heap → Prop} (hm : OkOrExit m hp P)
    (h : ∀ a h', P a h' → Q a h') : OkOrExit m hp Q := by
  rcases hm with ⟨a, h', e, q⟩ | e
  · exact Or.inl ⟨a, h', e, h _ _ q⟩
  · exact Or.inr e

theorem Track.free {hp h : Heap} {X Y : List Nat} {i : Nat} (t : Track hp h X) (p : X.Perm (i :: Y)) :
    HOk (free i) h fun _ h' => Track hp h' Y := by
  have hl := t.live.trans (p.append_right _)
  refine ⟨(), _, if_pos (hl.mem_iff.2 (List.mem_cons_self)), ?_, t.fails, t.next⟩
  have := hl.erase i
  rwa [List.cons_append, List.erase_cons_head] at this

theorem Track.use {α : Type} {hp h : Heap} {X ids : List Nat} {c : CM α} {v : α} (t : Track hp h X) (hi : ∀ i ∈ ids, i ∈ X)
    (hc : c = .ok v) : HOk (use ids c) h fun r h' => r = v ∧ h' = h := by
  refine ⟨v, h, ?_, rfl, rfl⟩
  unfold FlatCV.use
  rw [if_pos fun i h' => t.mem (hi i h'), hc]

theorem Track.malloc {α : Type} {hp h : Heap} {X : List Nat} {n : Nat} (t : Track hp h X) (hf : ∀ i, hp.fails i = false) :
    HOk (malloc α n) h fun r h' => ∃ i, r = some ⟨i, List.replicate n none⟩ ∧ Track hp h' (i :: X) := by
  refine ⟨some ⟨h.next, _⟩, { h with next := h.next + 1, live := h.next :: h.live }, ?_, h.next, rfl, t.live.cons _, t.fails, ?_⟩
  · unfold FlatCV.malloc
    rw [t.fails, hf]
    rfl
  · exact t.next.trans (Nat.le_succ _)

theorem Track.calloc {α : Type} {hp h : Heap} {X : List Nat} {n : Nat} {z : α} (t : Track hp h X)
    (hf : ∀ i, hp.fails i = false) :
    HOk (calloc n z) h fun r h' => ∃ i, r = some ⟨i, List.replicate n (some z)⟩ ∧ Track hp h' (i :: X) := by
  refine ⟨some ⟨h.next, _⟩, { h with next := h.next + 1, live := h.next :: h.live }, ?_, h.next, rfl, t.live.cons _, t.fails, ?_⟩
  · unfold FlatCV.calloc
    rw [t.fails, hf]
    rfl
  · exact t.next.trans (Nat.le_succ _)

theorem Track.fresh {α : Type} {hp h h' : Heap} {X : List Nat} {b : Buf α} (t : Track hp h X) (f : FreshResult h h' b) :
    Track hp h' (b.id :: X) := by
  obtain ⟨h1, h2, h3, h4⟩ := f
  refine ⟨?_, h2.trans t.fails, ?_⟩
  · rw [h1]
    exact t.live.cons _
  · have := t.next
    omega

theorem Track.not_oom {hp h h' : Heap} {X : List Nat} (t : Track hp h X) (hf : ∀ i, hp.fails i = false) : ¬ OutOfMemory h h' := by
  rintro ⟨-, -, -, i, -, -, h⟩
  rw [t.fails, hf] at h
  cases h

theorem Track.returns {α : Type} {hp h : Heap} {X : List Nat} {m : HM (Option (Buf α))} {Q : Cells α → Prop} (t : Track hp h X)
    (hf : ∀ i, hp.fails i = false) (hm : Returns m h Q) :
    HOk m h fun r h' => ∃ b, r = some b ∧ Q b.cells ∧ Track hp h' (b.id :: X) := by
  obtain ⟨r, h', e, hq⟩ := hm
  refine ⟨r, h', e, ?_⟩
  cases r with
  | none => exact absurd hq (t.not_oom hf)
  | some b => exact ⟨b, rfl, hq.2, t.fresh hq.1⟩

theorem Track.yields {hp h : Heap} {X : List Nat} {m : HM (Option (Buf UInt8))} {out : List UInt8} (t : Track hp h X)
    (hf : ∀ i, hp.fails i = false) (hm : Yields m out) :
    HOk m h fun r h' => ∃ i, r = some ⟨i, out.map some⟩ ∧ Track hp h' (i :: X) := by
  refine (t.returns hf (hm h)).mono ?_
  rintro r h' ⟨b, rfl, e, t'⟩
  exact ⟨b.id, by rw [← e], t'⟩

theorem Track.yieldsDims {hp h : Heap} {X : List Nat} {m : HM (Option (Buf UInt8) × Option (Nat × Nat))} {ow oh : Nat}
    {out : List UInt8} (t : Track hp h X) (hf : ∀ i, hp.fails i = false) (hm : YieldsDims m ow oh out) :
    HOk m h fun r h' => ∃ i, r = (some ⟨i, out.map some⟩, some (ow, oh)) ∧ Track hp h' (i :: X) := by
  obtain ⟨r, h', e, hd, hq⟩ := hm h
  refine ⟨r, h', e, ?_⟩
  obtain ⟨r1, r2⟩ := r
  cases r1 with
  | none => exact absurd hq (t.not_oom hf)
  | some b =>
    dsimp only at hd hq
    exact ⟨b.id, by rw [hd, ← hq.2], t.fresh hq.1⟩

end FlatCV
