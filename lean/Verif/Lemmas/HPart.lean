/-
Partial correctness of computations with a heap: what holds if the computation finishes without fault.
-/
import Verif.Lemmas.FoerstnerFault

namespace FlatCV

/-- If the computation finishes without fault, its result and the heap satisfy `Q`. -/
def HPart {α : Type} (m : HM α) (hp : Heap) (Q : α → Heap → Prop) : Prop := ∀ a h', m hp = .ok (a, h') → Q a h'

theorem HPart.pure {α : Type} {a : α} {hp : Heap} {Q : α → Heap → Prop} (h : Q a hp) : HPart (Pure.pure a : HM α) hp Q := by
  intro b h' e
  cases e
  exact h

theorem HPart.bind {α β : Type} {m : HM α} {f : α → HM β} {hp : Heap} {P : α → Heap → Prop} {Q : β → Heap → Prop}
    (hm : HPart m hp P) (hf : ∀ a h', P a h' → HPart (f a) h' Q) : HPart (m >>= f) hp Q := by
  intro b h'' e
  rw [hm_bind] at e
  cases hr : m hp with
  | error er => rw [hr] at e; cases e
  | ok r =>
    rw [hr] at e
    exact hf r.1 r.2 (hm _ _ hr) b h'' e

theorem HPart.mono {α : Type} {m : HM α} {hp : Heap} {P Q : α → Heap → Prop} (hm : HPart m hp P)
    (h : ∀ a h', P a h' → Q a h') : HPart m hp Q := fun a h' e => h a h' (hm a h' e)

theorem HPart.trivial {α : Type} (m : HM α) (hp : Heap) : HPart m hp fun _ _ => True := fun _ _ _ => True.intro

theorem HPart.seq {α β : Type} {m : HM α} {f : α → HM β} {hp : Heap} {Q : β → Heap → Prop}
    (hf : ∀ a h', HPart (f a) h' Q) : HPart (m >>= f) hp Q :=
  HPart.bind (HPart.trivial m hp) fun a h' _ => hf a h'

theorem HPart.use {α : Type} {ids : List Nat} {c : CM α} {hp : Heap} {Q : α → Prop} (h : Part c Q) :
    HPart (use ids c) hp fun a h' => Q a ∧ h' = hp := by
  intro a h' e
  unfold FlatCV.use at e
  split_ifs at e
  cases c with
  | error er => cases e
  | ok v =>
    cases e
    exact ⟨h _ rfl, rfl⟩

theorem HPart.fault {α : Type} {e : Fault} {hp : Heap} {Q : α → Heap → Prop} : HPart (hfault e : HM α) hp Q := by
  intro a h' h
  cases h

theorem HPart.free {i : Nat} {hp : Heap} : HPart (free i) hp fun _ h' => h'.fails = hp.fails ∧ h'.next = hp.next := by
  intro a h' e
  unfold FlatCV.free at e
  split_ifs at e
  cases e
  exact ⟨rfl, rfl⟩

theorem HPart.malloc {α : Type} {n : Nat} {hp : Heap} (hf : ∀ i, hp.fails i = false) :
    HPart (malloc α n) hp fun b h' => (∃ i, b = some ⟨i, List.replicate n none⟩) ∧ ∀ i, h'.fails i = false := by
  intro a h' e
  unfold FlatCV.malloc at e
  rw [hf] at e
  cases e
  exact ⟨⟨_, rfl⟩, hf⟩

theorem HOk.part {α : Type} {m : HM α} {hp : Heap} {Q : α → Heap → Prop} (h : HOk m hp Q) : HPart m hp Q := by
  obtain ⟨a, h', e, q⟩ := h
  intro b h'' e'
  rw [e] at e'
  cases e'
  exact q

theorem HPart.err {α : Type} {m : HM α} {hp : Heap} (h : HPart m hp fun _ _ => False) : HErr m hp := by
  cases hr : m hp with
  | error e => exact ⟨e, hr⟩
  | ok r => exact absurd (h r.1 r.2 hr) id

theorem part_wr {β : Type} {s : Cells β} {k : Nat} {v : β} : Part (wr s k v) fun t => k < s.length ∧ t = s.set k (some v) := by
  intro t e
  unfold wr at e
  split_ifs at e with h
  cases e
  exact ⟨h, rfl⟩

theorem part_rd {β : Type} {s : Cells β} {k : Nat} : Part (rd s k) fun v => s[k]? = some (some v) := by
  intro v e
  unfold rd at e
  split at e
  · cases e
  · cases e
  · rename_i h; cases e; exact h

end FlatCV
