/-
Which cells a computation has written when it finishes (partial correctness).
-/
import Verif.Lemmas.HPart

namespace FlatCV

/-- Cell `i` has a value. -/
def Init {α : Type} (s : Cells α) (i : Nat) : Prop := ∃ v, s[i]? = some (some v)

/-- If `f` finishes then it has kept the number of cells and all their initialised state, and initialised those in `S`. -/
def Inits {α : Type} (S : Nat → Prop) (f : Cells α → CM (Cells α)) : Prop :=
  ∀ s, Part (f s) fun t => t.length = s.length ∧ ∀ i, Init s i ∨ S i → Init t i

variable {α β : Type} {S T : Nat → Prop} {f g : Cells α → CM (Cells α)}

theorem Inits.weaken (h : Inits S f) (hs : ∀ i, T i → S i) : Inits T f := fun s =>
  (h s).mono fun _ ht => ⟨ht.1, fun i hi => ht.2 i (hi.imp id (hs i))⟩

theorem Inits.pure : Inits (fun _ => False) (fun s => Pure.pure s : Cells α → CM (Cells α)) := fun _ =>
  Part.pure ⟨rfl, fun _ hi => hi.elim id False.elim⟩

theorem Inits.error {e : Fault} : Inits S (fun _ => .error e : Cells α → CM (Cells α)) := fun _ => Part.error

theorem Inits.wr (k : Nat) (v : α) : Inits (fun i => i = k) (fun s => wr s k v) := by
  intro s
  refine part_wr.mono ?_
  rintro t ⟨hk, rfl⟩
  refine ⟨by simp, fun i hi => ?_⟩
  unfold Init
  by_cases e : i = k
  · subst e
    exact ⟨v, by simp [hk]⟩
  · rw [List.getElem?_set_ne (by omega)]
    exact hi.resolve_right e

theorem Inits.wrZ (k : Int) (v : α) : Inits (fun i => (i : Int) = k) (fun s => wrZ s k v) := by
  intro s
  unfold FlatCV.wrZ
  split
  · exact Inits.weaken (Inits.wr k.toNat v) (fun i hi => by omega) s
  · exact Part.error

theorem Inits.bind (hf : Inits S f) (hg : Inits T g) : Inits (fun i => S i ∨ T i) (fun s => f s >>= g) := by
  intro s
  refine Part.bind (hf s) ?_
  rintro t ⟨hl, ht⟩
  refine (hg t).mono ?_
  rintro u ⟨hl', hu⟩
  exact ⟨hl'.trans hl, fun i hi => hu i (by
    rcases hi with h | h | h
    · exact Or.inl (ht i (Or.inl h))
    · exact Or.inl (ht i (Or.inr h))
    · exact Or.inr h)⟩

/-- A computation before, whose result the rest uses. -/
theorem Inits.pre {m : CM β} {k : β → Cells α → CM (Cells α)} (h : ∀ b, Inits S (k b)) : Inits S (fun s => m >>= fun b => k b s) :=
  fun s => Part.bind (Part.trivial m) fun b _ => h b s

theorem Inits.forN {n : Nat} {body : Nat → Cells α → CM (Cells α)} {W : Nat → Nat → Prop} (h : ∀ k, k < n → Inits (W k) (body k)) :
    Inits (fun i => ∃ k, k < n ∧ W k i) (fun s => FlatCV.forN n s body) := by
  intro s
  refine (Part.forN (fun k t => t.length = s.length ∧ ∀ i, Init s i ∨ (∃ j, j < k ∧ W j i) → Init t i) ?_ ?_).mono fun t ht => ht
  · exact ⟨rfl, fun i hi => hi.elim id fun ⟨j, hj, _⟩ => by omega⟩
  · rintro k hk t ⟨hl, ht⟩
    refine (h k hk t).mono ?_
    rintro u ⟨hl', hu⟩
    refine ⟨hl'.trans hl, fun i hi => hu i ?_⟩
    rcases hi with hi | ⟨j, hj, hw⟩
    · exact Or.inl (ht i (Or.inl hi))
    · by_cases e : j = k
      · subst e
        exact Or.inr hw
      · exact Or.inl (ht i (Or.inr ⟨j, by omega, hw⟩))

theorem Inits.forU32 {n : Nat} {body : Nat → Cells α → CM (Cells α)} {W : Nat → Nat → Prop} (h : ∀ k, k < n → Inits (W k) (body k)) :
    Inits (fun i => ∃ k, k < n ∧ W k i) (fun s => FlatCV.forU32 n s body) := by
  intro s
  unfold FlatCV.forU32
  split
  · exact Inits.forN h s
  · exact Part.bind (Part.trivial _) fun _ _ => Part.error

theorem Inits.memcpyIn (di : Nat) (src : List α) (si n : Nat) :
    Inits (fun i => di ≤ i ∧ i < di + n) (fun s => FlatCV.memcpyIn s di src si n) := by
  unfold FlatCV.memcpyIn
  refine (Inits.forN (W := fun k i => i = di + k) fun k _ => Inits.pre fun v => Inits.wr _ v).weaken ?_
  intro i hi
  exact ⟨i - di, by omega, by omega⟩

theorem Inits.ite {p : Prop} [Decidable p] (hf : p → Inits S f) (hg : ¬ p → Inits S g) :
    Inits S (fun s => if p then f s else g s) := by
  intro s
  split
  · exact hf ‹_› s
  · exact hg ‹_› s

/-- Four stores. -/
theorem Inits.four {a b c d : Nat} {v1 v2 v3 v4 : α} : Inits (fun i => i = a ∨ i = b ∨ i = c ∨ i = d)
    (fun s => do
      let s ← FlatCV.wr s a v1
      let s ← FlatCV.wr s b v2
      let s ← FlatCV.wr s c v3
      FlatCV.wr s d v4) :=
  ((Inits.wr a v1).bind ((Inits.wr b v2).bind ((Inits.wr c v3).bind (Inits.wr d v4)))).weaken fun _ h => h

theorem all_init {s : Cells α} (h : ∀ i, i < s.length → Init s i) : ∃ out : List α, s = out.map some := by
  induction s with
  | nil => exact ⟨[], rfl⟩
  | cons a s ih =>
    obtain ⟨out, e⟩ := ih fun i hi => by
      have := h (i + 1) (by simpa using hi)
      simpa [Init] using this
    obtain ⟨v, hv⟩ := h 0 (by simp)
    exact ⟨v :: out, by simp_all⟩

/-- The cells `0 … n-1` as pixels of four bytes in rows: every cell belongs to one. -/
theorem pixel_of_cell {w h i : Nat} (hi : i < w * h * 4) :
    ∃ y, y < h ∧ ∃ x, x < w ∧ ∃ c, c < 4 ∧ i = (y * w + x) * 4 + c := by
  have hw : 0 < w := by
    rcases Nat.eq_zero_or_pos w with e | e
    · subst e
      omega
    · exact e
  refine ⟨i / 4 / w, ?_, i / 4 % w, Nat.mod_lt _ hw, i % 4, by omega, ?_⟩
  · rw [Nat.div_lt_iff_lt_mul hw, Nat.mul_comm h w]
    omega
  · have := Nat.div_add_mod (i / 4) w
    rw [Nat.mul_comm] at this
    omega

/-- A block of `n` bytes whose computation kept its length and initialised everything if `n` is at most `2^32`. -/
def Whole (n : Nat) (c : Cells UInt8) : Prop := c.length = n ∧ (n ≤ 4294967296 → ∃ out : List UInt8, c = out.map some)

theorem Inits.whole {n : Nat} {f : Cells UInt8 → CM (Cells UInt8)} {c0 : Cells UInt8} (hl : c0.length = n) (h : Inits S f)
    (hs : n ≤ 4294967296 → ∀ i, i < n → Init c0 i ∨ S i) : Part (f c0) (Whole n) := by
  refine (h _).mono ?_
  rintro t ⟨hl', ht⟩
  have hl : t.length = n := hl'.trans hl
  exact ⟨hl, fun hn => all_init fun i hi => ht i (hs hn i (by omega))⟩

/-- If the call returns a block, it has this shape. -/
def Shaped (n : Nat) (m : HM (Option (Buf UInt8))) : Prop := ∀ hp, HPart m hp fun r _ => ∀ b, r = some b → Whole n b.cells

theorem Shaped.null {n : Nat} : Shaped n (Pure.pure none) := fun _ => HPart.pure fun _ e => by cases e

theorem Shaped.seq {m : HM β} {f : β → HM (Option (Buf UInt8))} {n : Nat} (h : ∀ b, Shaped n (f b)) : Shaped n (m >>= f) :=
  fun _ => HPart.seq fun a h' => h a h'

theorem Shaped.ite {p : Prop} [Decidable p] {a b : HM (Option (Buf UInt8))} {n : Nat} (ha : p → Shaped n a) (hb : ¬ p → Shaped n b) :
    Shaped n (if p then a else b) := by
  split
  · exact ha ‹_›
  · exact hb ‹_›

theorem Shaped.allocFill {n : Nat} {f : Cells UInt8 → CM (Cells UInt8)} (h : Part (f (List.replicate n none)) (Whole n)) :
    Shaped n (FlatCV.allocFill n f) := by
  intro hp
  unfold FlatCV.allocFill
  refine HPart.bind (P := fun r _ => ∀ b, r = some b → b.cells = List.replicate n none) ?_ ?_
  · intro r h' e b hb
    subst hb
    unfold FlatCV.malloc at e
    split at e <;> cases e
    rfl
  · intro r h' hr
    cases r with
    | none => exact HPart.pure fun b e => by cases e
    | some b =>
      refine HPart.bind (HPart.use (Q := Whole n) ?_) ?_
      · rw [hr b rfl]
        exact h
      · rintro c h'' ⟨hc, _⟩
        refine HPart.pure fun b' e => ?_
        cases e
        exact hc

theorem Shaped.callThenFree {m : HM (Option (Buf β))} {g : List β → HM (Option (Buf UInt8))} {n : Nat} (h : ∀ l, Shaped n (g l)) :
    Shaped n (FlatCV.callThenFree m g) := by
  unfold FlatCV.callThenFree
  refine Shaped.seq fun r => ?_
  cases r with
  | none => exact Shaped.null
  | some b =>
    refine Shaped.seq fun l => ?_
    intro hp
    refine HPart.bind (h l hp) ?_
    intro r h' hr
    exact HPart.seq fun _ _ => HPart.pure hr

/-- `malloc` and then a use of the new block whose cells are known. -/
theorem Shaped.malloc {n : Nat} {k : Nat} {f : Option (Buf UInt8) → HM (Option (Buf UInt8))} (h0 : Shaped n (f none))
    (h : ∀ i, Shaped n (f (some ⟨i, List.replicate k none⟩))) : Shaped n (FlatCV.malloc UInt8 k >>= f) := by
  intro hp
  refine HPart.bind (P := fun r _ => r = none ∨ ∃ i, r = some ⟨i, List.replicate k none⟩) ?_ ?_
  · intro r h' e
    unfold FlatCV.malloc at e
    split at e <;> cases e
    · exact Or.inl rfl
    · exact Or.inr ⟨_, rfl⟩
  · rintro r h' (rfl | ⟨i, rfl⟩)
    · exact h0 h'
    · exact h i h'

theorem Shaped.use {n : Nat} {ids : List Nat} {c : CM β} {R : β → Prop} {f : β → HM (Option (Buf UInt8))} (hc : Part c R)
    (h : ∀ b, R b → Shaped n (f b)) : Shaped n (FlatCV.use ids c >>= f) := by
  intro hp
  refine HPart.bind (HPart.use hc) ?_
  rintro b h' ⟨hb, _⟩
  exact h b hb h'

theorem Shaped.ret {n : Nat} {b : Buf UInt8} (h : Whole n b.cells) : Shaped n (Pure.pure (some b)) :=
  fun _ => HPart.pure fun _ e => by cases e; exact h

end FlatCV
