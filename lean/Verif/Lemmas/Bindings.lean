/-
From properties of the C functions to properties of the Haskell functions that call them.
-/
import Verif.Spec.Bindings
import Verif.Lemmas.CliShape
import Verif.Lemmas.Tidy

namespace FlatCV

open Model Model.Hs Spec

theorem shows_of_cells {b : Buf UInt8} {out : List UInt8} {z : Int} (hb : b.cells = out.map some) (hz : z = out.length) :
    Shows (makeVector b z) out := by
  refine ⟨hz, fun i hi => ?_⟩
  unfold Vec.read makeVector rd
  dsimp only
  rw [hb, List.getElem?_map, List.getElem?_eq_getElem hi]
  rfl

theorem u32_small {n : Nat} (h : n < 4294967296) : u32 n = n := Nat.mod_eq_of_lt h

theorem withImageData_ok {m : HM (Option (Buf UInt8))} {n : Nat} {hp h' : Heap} {v : Vec}
    (e : withImageData m n hp = .ok (some v, h')) : ∃ b, m hp = .ok (some b, h') ∧ v = makeVector b n := by
  unfold withImageData at e
  rw [hm_bind] at e
  cases hm : m hp with
  | error x => rw [hm] at e; cases e
  | ok q =>
    obtain ⟨r, g⟩ := q
    rw [hm] at e
    cases r with
    | none => cases e
    | some b =>
      have e' : (Except.ok (some (makeVector b n), g) : Except HFault _) = .ok (some v, h') := e
      injection e' with e'
      injection e' with e1 e2
      injection e1 with e1
      exact ⟨b, by rw [e2], e1.symm⟩

theorem readable_of_shaped {m : HM (Option (Buf UInt8))} {n : Nat} (hm : Shaped n m) (hn : n < 4294967296) :
    Readable n (withImageData m (u32 n)) := by
  intro hp v h' e
  obtain ⟨b, e1, rfl⟩ := withImageData_ok e
  obtain ⟨hl, ho⟩ := hm hp _ _ e1 b rfl
  obtain ⟨out, ho⟩ := ho (by omega)
  have : out.length = n := by rw [← hl, ho, List.length_map]
  exact ⟨out, this, shows_of_cells ho (by rw [u32_small hn, this])⟩

theorem hands_of_yields {m : HM (Option (Buf UInt8))} {out : List UInt8} {n : Nat} (hy : Yields m out) (hl : n = out.length) :
    Hands (withImageData m n) out := by
  intro hp
  unfold withImageData
  refine HOk.bind (hy hp) ?_
  intro r h' hr
  cases r with
  | none => exact HOk.pure hr
  | some b => exact HOk.pure ⟨hr.1, shows_of_cells hr.2 (by rw [hl])⟩

theorem exposes_of_yields {m : HM (Option (Buf UInt8))} {out : List UInt8} {n : Nat} (hy : Yields m out) (hl : out.length < n) :
    Exposes (withImageData m n) := by
  intro hp hf
  obtain ⟨b, h', e, hb⟩ := hy.succeeds hf
  refine ⟨makeVector b n, h', ?_, out.length, ?_, ?_⟩
  · unfold withImageData
    rw [hm_bind, e]
    rfl
  · show (out.length : Int) < (n : Int)
    exact_mod_cast hl
  · unfold Vec.read makeVector rd
    dsimp only
    rw [hb, List.getElem?_eq_none (by simp)]

theorem handsSized_of_yields {m : HM (Option (Buf UInt8) × Option (Nat × Nat))} {ow oh ch : Nat} {out : List UInt8}
    (hy : YieldsDims m ow oh out) (hl : out.length = ow * oh * ch) (hn : ow * oh * ch < 4294967296) :
    HandsSized (withSize m ch) ow oh out := by
  intro hp
  unfold withSize
  refine HOk.bind (hy hp) ?_
  rintro ⟨r, s⟩ h' ⟨hs, hr⟩
  dsimp only at hs hr ⊢
  subst hs
  cases r with
  | none => exact HOk.pure hr
  | some b => exact HOk.pure ⟨rfl, rfl, hr.1, shows_of_cells hr.2 (by rw [u32_small hn, hl])⟩

theorem withSize_ok {m : HM (Option (Buf UInt8) × Option (Nat × Nat))} {ch : Nat} {hp h' : Heap} {w h : Nat} {v : Vec}
    (e : withSize m ch hp = .ok (some (w, h, v), h')) :
    ∃ b, m hp = .ok ((some b, some (w, h)), h') ∧ v = makeVector b (u32 (w * h * ch)) := by
  unfold withSize at e
  rw [hm_bind] at e
  cases hm : m hp with
  | error x => rw [hm] at e; cases e
  | ok q =>
    obtain ⟨⟨r, s⟩, g⟩ := q
    rw [hm] at e
    cases r with
    | none => cases e
    | some b =>
      cases s with
      | none => cases e
      | some s =>
        obtain ⟨a, c⟩ := s
        have e' : (Except.ok (some (a, c, makeVector b (u32 (a * c * ch))), g) : Except HFault _) = .ok (some (w, h, v), h') := e
        injection e' with e'
        injection e' with e1 e2
        injection e1 with e1
        injection e1 with e1 e3
        injection e3 with e3 e4
        subst e1 e3
        exact ⟨b, by rw [e2], e4.symm⟩

theorem readableSized_of_shaped {m : HM (Option (Buf UInt8) × Option (Nat × Nat))} (hm : ShapedDims m) :
    ReadableSized 4 (withSize m 4) := by
  intro hp w h v h' e hn
  obtain ⟨b, e1, rfl⟩ := withSize_ok e
  obtain ⟨ow, oh, hs, _, _, _, _, hl, ho⟩ := hm hp _ _ e1 b rfl
  obtain ⟨rfl, rfl⟩ := Prod.mk.inj (Option.some.inj hs)
  obtain ⟨out, ho⟩ := ho (by omega)
  have : out.length = w * h * 4 := by rw [← hl, ho, List.length_map]
  exact ⟨out, this, shows_of_cells ho (by rw [u32_small hn, this])⟩

/-! ### Memory -/

theorem heapSafe_map {α β : Type} {m : HM α} {f : α → β} {hp : Heap} {Q : β → Heap → Prop} (h : HeapSafe m hp fun r h' => Q (f r) h') :
    HeapSafe (m >>= fun r => pure (f r)) hp Q := by
  obtain ⟨h1, h2, h3⟩ := h
  unfold HeapSafe
  rw [hm_bind]
  cases hm : m hp with
  | error x =>
    rw [hm] at h1 h2
    dsimp only
    refine ⟨?_, ?_, ?_⟩
    · intro e; exact h1 (by cases e; rfl)
    · intro e; exact h2 (by cases e; rfl)
    · intro r h' e; cases e
  | ok q =>
    obtain ⟨r, g⟩ := q
    dsimp only
    refine ⟨fun e => (by cases e), fun e => (by cases e), ?_⟩
    intro r' h' e
    cases e
    exact h3 r g hm

theorem effect_of_call {α : Type} {hp h' : Heap} {r : Option (Buf α)} (h : CallEffect hp h' r) :
    HeapEffect hp h' (r.map (·.id)).toList := by
  cases r with
  | none => exact h
  | some b => exact h.1

theorem managed_of_tidy {m : HM (Option (Buf UInt8))} {n : Nat} (t : Tidy m) : Managed (withImageData m n) := by
  intro hp
  have : withImageData m n = m >>= fun r => pure (r.map fun b => makeVector b n) := by
    unfold withImageData
    congr 1
    funext r
    cases r <;> rfl
  rw [this]
  refine heapSafe_map ?_
  obtain ⟨h1, h2, h3⟩ := t hp
  refine ⟨h1, h2, fun r h' e => ?_⟩
  have := effect_of_call (h3 r h' e)
  cases r <;> exact this

theorem managedSized_of_tidy {m : HM (Option (Buf UInt8) × Option (Nat × Nat))} {ch : Nat} (t : TidyWith m) : ManagedSized (withSize m ch) := by
  intro hp
  unfold withSize
  refine tk_callWith t (TK.start hp) ?_ ?_
  · intro h' x t'
    exact tk_pure t'.eff
  · intro h' b x t'
    cases x with
    | none => exact tk_err
    | some s => exact tk_pure t'.eff

theorem managed_trimmed {m : HM (Option (Buf UInt8) × Int × Int)} {ch : Nat} (t : TidyWith m) : ManagedSized (trimmed m ch) := by
  intro hp
  unfold trimmed
  refine tk_callWith t (TK.start hp) ?_ ?_
  · intro h' x t'
    exact tk_pure t'.eff
  · intro h' b x t'
    exact tk_pure t'.eff

end FlatCV
