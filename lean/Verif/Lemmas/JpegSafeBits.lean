/-
The JPEG decoder on arbitrary files: bytes, bits and codes.
-/
import Verif.Lemmas.PngColour
import Verif.Model.JpegLoad

namespace FlatCV
open Model

/-- Rule for `while` loops that must end before the fuel does. -/
theorem Outc.whileF {σ : Type} {E : Fault → Prop} {Q : σ → Prop} {step : σ → CM (σ × Bool)} (I : Nat → σ → Prop) (h0 : ∀ s, ¬ I 0 s)
    (hs : ∀ n s, I (n + 1) s → Outc E (step s) fun r => if r.2 then Q r.1 else I n r.1) :
    ∀ (fuel : Nat) (s : σ), I fuel s → Outc E (whileFuel fuel s step) Q := by
  intro fuel
  induction fuel with
  | zero => intro s h; exact absurd h (h0 s)
  | succ n ih =>
    intro s h
    unfold whileFuel
    refine Outc.bind (hs n s h) ?_
    rintro ⟨s', stop⟩ hr
    cases stop with
    | true => exact hr
    | false => exact ih s' hr

theorem js_rdIn {α : Type} {E : Fault → Prop} {l : List α} {i : Nat} (h : i < l.length) : Outc E (rdIn l i) fun v => l[i]? = some v := by
  unfold rdIn
  rw [List.getElem?_eq_getElem h]
  exact rfl

theorem js_wrIn {α : Type} {E : Fault → Prop} {l : List α} {i : Nat} {v : α} (h : i < l.length) : Outc E (wrIn l i v) fun r => r = l.set i v := by
  unfold wrIn
  rw [if_pos h]
  exact rfl

theorem js_mem {α : Type} {l : List α} {i : Nat} {v : α} (h : l[i]? = some v) : v ∈ l := List.mem_of_getElem? h

theorem js_i32 {E : Fault → Prop} {z : Int} (h : -2147483648 ≤ z ∧ z ≤ 2147483647) : Outc E (i32 z) fun r => r = z := by
  rw [i32_ok h]
  exact rfl

/-! ### Bytes -/

/-- The bytes still to come. -/
def Ctx.rest (s : Ctx) : List UInt8 := s.buf ++ if s.live then s.file.drop s.fpos else []

/-- `s'` can be reached from `s` by reading. -/
structure Onward (s s' : Ctx) : Prop where
  suf : Ctx.rest s' <:+ Ctx.rest s
  live : s'.live = true → s.live = true

theorem Onward.refl (s : Ctx) : Onward s s := ⟨List.suffix_refl _, id⟩

theorem Onward.trans {a b c : Ctx} (h : Onward a b) (h' : Onward b c) : Onward a c := ⟨h'.suf.trans h.suf, fun l => h.live (h'.live l)⟩

/-- An upper bound of the reads before nothing changes any more. -/
def Ctx.left (s : Ctx) : Nat := (Ctx.rest s).length + if s.live then 1 else 0

theorem Onward.left {s s' : Ctx} (h : Onward s s') : Ctx.left s' ≤ Ctx.left s := by
  unfold Ctx.left
  have h1 := h.suf.length_le
  have h2 := h.live
  cases e : s'.live <;> cases e' : s.live <;> simp_all <;> omega

theorem left_fuel (s : Ctx) : Ctx.left s < s.fuel := by
  unfold Ctx.left Ctx.rest Ctx.fuel
  cases s.live <;> simp <;> omega

/-- What `get8` does: it takes the next byte, or finds the end for the first time, or changes nothing. -/
theorem get8_cases (s : Ctx) : (∃ b t, Ctx.rest s = b :: t ∧ (get8 s).1 = b ∧ Ctx.rest (get8 s).2 = t ∧ (get8 s).2.live = s.live) ∨
    (Ctx.rest s = [] ∧ (get8 s).1 = 0 ∧ Ctx.rest (get8 s).2 = [] ∧ (get8 s).2.live = false ∧ (s.live = false → (get8 s).2 = s)) := by
  unfold get8
  by_cases hb : s.buf = []
  · rw [if_neg (fun h => h hb)]
    by_cases hl : s.live = true
    · rw [if_pos hl]
      unfold refill nextByte
      by_cases hd : (s.file.drop s.fpos).take 128 = []
      · right
        have hd' : s.file.drop s.fpos = [] := by
          rcases List.take_eq_nil_iff.mp hd with h | h
          · exact absurd h (by decide)
          · exact h
        simp only [hd, if_true]
        refine ⟨?_, rfl, ?_, trivial, fun h => absurd hl (by rw [h]; decide)⟩
        · simp [Ctx.rest, hb, hl, hd']
        · simp [Ctx.rest]
      · left
        simp only [hd, if_false]
        obtain ⟨b, t, e⟩ : ∃ b t, (s.file.drop s.fpos).take 128 = b :: t := by
          cases h : (s.file.drop s.fpos).take 128 with
          | nil => exact absurd h hd
          | cons b t => exact ⟨b, t, rfl⟩
        refine ⟨b, t ++ (s.file.drop s.fpos).drop 128, ?_, by rw [e]; rfl, ?_, trivial⟩
        · have := List.take_append_drop 128 (s.file.drop s.fpos)
          simp only [Ctx.rest, hb, hl, if_true, List.nil_append]
          rw [e] at this
          exact this.symm
        · simp only [Ctx.rest, hl, if_true, e, List.tail_cons]
          congr 1
          have hlen := congrArg List.length e
          rw [← List.drop_drop]
          by_cases h128 : 128 ≤ (s.file.drop s.fpos).length
          · have : (b :: t).length = 128 := by rw [← e, List.length_take]; omega
            rw [this]
          · have h1 : (s.file.drop s.fpos).drop 128 = [] := List.drop_eq_nil_of_le (by omega)
            rw [h1]
            apply List.drop_eq_nil_of_le
            rw [← e, List.length_take]
            omega
    · rw [if_neg hl]
      right
      have hl' : s.live = false := by simpa using hl
      exact ⟨by simp [Ctx.rest, hb, hl'], rfl, by simp [Ctx.rest, hb, hl'], hl', fun _ => rfl⟩
  · rw [if_pos hb]
    left
    cases h : s.buf with
    | nil => exact absurd h hb
    | cons b t => exact ⟨b, t ++ if s.live then s.file.drop s.fpos else [], by simp [Ctx.rest, h], by simp [nextByte, h], by simp [Ctx.rest, nextByte, h], rfl⟩

theorem get8_reads (s : Ctx) : Onward s (get8 s).2 := by
  rcases get8_cases s with ⟨b, t, h1, h2, h3, h4⟩ | ⟨h1, h2, h3, h4, h5⟩
  · exact ⟨by rw [h3, h1]; exact List.suffix_cons _ _, fun l => by rw [← h4]; exact l⟩
  · exact ⟨by rw [h3, h1], fun l => by rw [h4] at l; cases l⟩

/-- Every read gets on, until the end has been found. -/
theorem get8_left (s : Ctx) : Ctx.left (get8 s).2 + 1 ≤ Ctx.left s ∨ (Ctx.left s = 0 ∧ (get8 s).1 = 0) := by
  unfold Ctx.left
  rcases get8_cases s with ⟨b, t, h1, h2, h3, h4⟩ | ⟨h1, h2, h3, h4, h5⟩
  · left
    rw [h3, h4, h1, List.length_cons]
    omega
  · rw [h3, h4, h1]
    cases hl : s.live with
    | true => left; simp
    | false => right; exact ⟨by simp, h2⟩

theorem get8_pos {s : Ctx} (h : (get8 s).1 ≠ 0) : Ctx.left (get8 s).2 + 1 ≤ Ctx.left s := by
  rcases get8_left s with h1 | h1
  · exact h1
  · exact absurd h1.2 h

theorem get16_reads (s : Ctx) : Onward s (get16be s).2 := (get8_reads s).trans (get8_reads _)

theorem get16_pos {s : Ctx} (h : (get16be s).1 ≠ 0) : Ctx.left (get16be s).2 + 1 ≤ Ctx.left s := by
  by_cases h1 : (get8 s).1 = 0
  · have h2 : (get8 (get8 s).2).1 ≠ 0 := by
      intro h2
      apply h
      show (get8 s).1.toNat * 256 + (get8 (get8 s).2).1.toNat = 0
      rw [h1, h2]
      rfl
    have := get8_pos h2
    have h3 := (get8_reads s).left
    show Ctx.left (get8 (get8 s).2).2 + 1 ≤ _
    omega
  · have := get8_pos h1
    have h3 := (get8_reads (get8 s).2).left
    show Ctx.left (get8 (get8 s).2).2 + 1 ≤ _
    omega

theorem takeBytes_reads (n : Nat) (s : Ctx) : Onward s (takeBytes n s).2 := by
  induction n generalizing s with
  | zero => exact Onward.refl s
  | succ n ih => exact (get8_reads s).trans (ih _)

theorem js_takeBytes_len (n : Nat) (s : Ctx) : (takeBytes n s).1.length = n := by
  induction n generalizing s with
  | zero => rfl
  | succ n ih => show (_ :: (takeBytes n _).1).length = _; rw [List.length_cons, ih]

theorem takeBytes_le (n : Nat) (s : Ctx) : ∀ x ∈ (takeBytes n s).1, x ≤ 255 := by
  induction n generalizing s with
  | zero => intro x hx; cases hx
  | succ n ih =>
    intro x hx
    rcases List.mem_cons.mp hx with rfl | h
    · have := (get8 s).1.toNat_lt
      omega
    · exact ih _ x h

theorem takeWords_reads (n : Nat) (s : Ctx) : Onward s (takeWords n s).2 := by
  induction n generalizing s with
  | zero => exact Onward.refl s
  | succ n ih => exact (get16_reads s).trans (ih _)

theorem takeWords_length (n : Nat) (s : Ctx) : (takeWords n s).1.length = n := by
  induction n generalizing s with
  | zero => rfl
  | succ n ih => show (_ :: (takeWords n _).1).length = _; rw [List.length_cons, ih]

theorem get16_le (s : Ctx) : (get16be s).1 ≤ 65535 := by
  show (get8 s).1.toNat * 256 + (get8 (get8 s).2).1.toNat ≤ 65535
  have h1 := (get8 s).1.toNat_lt
  have h2 := (get8 (get8 s).2).1.toNat_lt
  omega

theorem takeWords_le (n : Nat) (s : Ctx) : ∀ x ∈ (takeWords n s).1, x ≤ 65535 := by
  induction n generalizing s with
  | zero => intro x hx; cases hx
  | succ n ih =>
    intro x hx
    rcases List.mem_cons.mp hx with rfl | h
    · exact get16_le s
    · exact ih _ x h

theorem skip_reads (s : Ctx) (n : Nat) : Onward s (skip s n) := by
  unfold skip
  split
  · exact Onward.refl s
  · split
    · exact ⟨by unfold Ctx.rest; exact List.suffix_append _ _, id⟩
    · split
      · refine ⟨?_, id⟩
        unfold Ctx.rest
        cases s.live with
        | false => simp
        | true =>
          simp only [if_true, List.nil_append]
          rw [← List.drop_drop]
          exact (List.drop_suffix _ _).trans (List.suffix_append _ _)
      · refine ⟨?_, id⟩
        unfold Ctx.rest
        obtain ⟨t, ht⟩ := List.drop_suffix n s.buf
        exact ⟨t, by rw [← List.append_assoc, ht]⟩

theorem afterFF_out {E : Fault → Prop} : ∀ (n : Nat) (s : Ctx), Ctx.left s < n → Outc E (afterFF n s) fun r => Onward s r.2 := by
  intro n
  induction n with
  | zero => intro s h; omega
  | succ n ih =>
    intro s h
    unfold afterFF
    split
    · rename_i hff
      have := get8_pos (s := s) (by rw [hff]; decide)
      exact (ih _ (by omega)).mono fun r hr => (get8_reads s).trans hr
    · exact get8_reads s

/-! ### Bits -/

/-- The bits held. -/
structure EntS (j : Ent) : Prop where
  buf : j.buf < 4294967296
  lo : 0 ≤ j.bits
  hi : j.bits ≤ 32

theorem pushByte_out {E : Fault → Prop} {j : Ent} {b : Nat} (h : EntS j) (h24 : j.bits ≤ 24) (hb : b < 256) :
    Outc E (pushByte j b) fun r => EntS r ∧ r.s = j.s ∧ r.bits = j.bits + 8 := by
  unfold pushByte
  rw [if_pos ⟨h.lo, h24⟩]
  refine ⟨⟨?_, ?_, ?_⟩, rfl, rfl⟩
  · have h1 : b <<< (24 - j.bits).toNat < 2 ^ 32 := by
      rw [Nat.shiftLeft_eq]
      have h2 : (24 - j.bits).toNat ≤ 24 := by have := h.lo; omega
      have h3 : 2 ^ (24 - j.bits).toNat ≤ 2 ^ 24 := Nat.pow_le_pow_right (by decide) h2
      calc b * 2 ^ (24 - j.bits).toNat ≤ 255 * 2 ^ 24 := Nat.mul_le_mul (by omega) h3
        _ < 2 ^ 32 := by decide
    exact Nat.or_lt_two_pow (n := 32) h.buf h1
  · have := h.lo
    show 0 ≤ j.bits + 8
    omega
  · show j.bits + 8 ≤ 32
    omega

theorem EntS.at {j : Ent} (h : EntS j) (s : Ctx) : EntS { j with s := s } := ⟨h.buf, h.lo, h.hi⟩

theorem growStep_out {E : Fault → Prop} {j : Ent} (h : EntS j) (h24 : j.bits ≤ 24) :
    Outc E (growStep j) fun r => EntS r.1 ∧ Onward j.s r.1.s ∧ (r.2 = false → r.1.bits = j.bits + 8) := by
  unfold growStep
  split
  · refine Outc.bind (pushByte_out h h24 (by decide)) fun r hr => ?_
    exact ⟨hr.1, by rw [hr.2.1]; exact Onward.refl _, fun _ => hr.2.2⟩
  · split
    · refine Outc.bind (afterFF_out _ _ ?_) fun r hr => ?_
      · have := (get8_reads j.s).left
        have := left_fuel j.s
        omega
      · obtain ⟨c, s⟩ := r
        have hR : Onward j.s s := (get8_reads j.s).trans hr
        dsimp only
        split
        · exact ⟨⟨h.buf, h.lo, h.hi⟩, hR, fun e => (by cases e)⟩
        · refine Outc.bind (pushByte_out (h.at s) h24 (by decide)) fun r hr => ?_
          exact ⟨hr.1, by rw [hr.2.1]; exact hR, fun _ => hr.2.2⟩
    · refine Outc.bind (pushByte_out (h.at _) h24 (get8 j.s).1.toNat_lt) fun r hr => ?_
      exact ⟨hr.1, by rw [hr.2.1]; exact get8_reads j.s, fun _ => hr.2.2⟩

theorem grow_out {E : Fault → Prop} {j : Ent} (h : EntS j) (h24 : j.bits ≤ 24) : Outc E (grow j) fun r => EntS r ∧ Onward j.s r.s := by
  unfold grow
  refine Outc.whileF (fun n (g : Ent) => EntS g ∧ Onward j.s g.s ∧ g.bits ≤ 24 ∧ 40 ≤ g.bits + 8 * n) (fun g hg => ?_) (fun n g hg => ?_) 5 j
    ⟨h, Onward.refl _, h24, by have := h.lo; omega⟩
  · omega
  · refine Outc.bind (growStep_out hg.1 hg.2.2.1) fun r hr => ?_
    obtain ⟨g', stop⟩ := r
    obtain ⟨h1, h2, h3⟩ := hr
    have hR := hg.2.1.trans h2
    dsimp only at h1 h2 h3 ⊢
    cases stop with
    | true => exact ⟨h1, hR⟩
    | false =>
      have h4 := h3 rfl
      by_cases h5 : 24 < g'.bits
      · refine Outc.pure ?_
        simp only [Bool.false_or, decide_eq_true h5, if_true]
        exact ⟨h1, hR⟩
      · refine Outc.pure ?_
        simp only [Bool.false_or, decide_eq_false h5]
        exact ⟨h1, hR, by omega, by push_cast at hg ⊢; omega⟩

theorem need_out {E : Fault → Prop} {j : Ent} {n : Nat} (h : EntS j) (hn : n ≤ 24) : Outc E (need n j) fun r => EntS r ∧ Onward j.s r.s := by
  unfold need
  split
  · exact grow_out h (by omega)
  · exact ⟨h, Onward.refl _⟩

theorem EntS.drop {j : Ent} (h : EntS j) {s : Nat} (hs : (s : Int) ≤ j.bits) : EntS (Model.drop j s) :=
  ⟨Nat.mod_lt _ (by decide), by show 0 ≤ j.bits - s; omega, by have := h.hi; show j.bits - s ≤ 32; omega⟩

theorem extend_out {E : Fault → Prop} {j : Ent} {n : Nat} (h : EntS j) (h1 : 1 ≤ n) (h15 : n ≤ 15) :
    Outc E (extend_receive j n) fun r => EntS r.2 ∧ Onward j.s r.2.s ∧ -32767 ≤ r.1 ∧ r.1 ≤ 32767 := by
  unfold extend_receive
  refine Outc.bind (need_out h (by omega)) fun g hg => ?_
  obtain ⟨hg, hR⟩ := hg
  split
  · exact ⟨hg, hR, by show (-32767 : Int) ≤ 0; decide, by show (0 : Int) ≤ 32767; decide⟩
  · rename_i hb
    have h2 : 2 ^ n ≤ 2 ^ 15 := Nat.pow_le_pow_right (by decide) h15
    have h3 : (g.buf <<< n % 4294967296 ||| g.buf / 2 ^ (32 - n)) % 2 ^ n < 2 ^ n := Nat.mod_lt _ (Nat.two_pow_pos n)
    have h4 : (g.buf <<< n % 4294967296 ||| g.buf / 2 ^ (32 - n)) < 2 ^ 32 :=
      Nat.or_lt_two_pow (Nat.mod_lt _ (by decide)) (lt_of_le_of_lt (Nat.div_le_self _ _) hg.buf)
    have h5 : ((2 : Int) ^ n) = ((2 ^ n : Nat) : Int) := by push_cast; rfl
    have key : ∀ (v w : Nat), v < w → w ≤ 32768 → -32767 ≤ (v : Int) - (w - 1) ∧ (v : Int) - (w - 1) ≤ 32767 ∧ -32767 ≤ (v : Int) ∧ (v : Int) ≤ 32767 :=
      fun v w hv hw => ⟨by omega, by omega, by omega, by omega⟩
    obtain ⟨k1, k2, k3, k4⟩ := key _ _ h3 h2
    refine ⟨⟨?_, ?_, ?_⟩, hR, ?_, ?_⟩
    · exact lt_of_le_of_lt (Nat.sub_le _ _) h4
    · show 0 ≤ g.bits - n
      omega
    · have := hg.hi
      show g.bits - n ≤ 32
      omega
    · show -32767 ≤ (if _ then _ else _ : Int)
      rw [h5]
      split
      · exact k1
      · exact k3
    · show (if _ then _ else _ : Int) ≤ 32767
      rw [h5]
      split
      · exact k2
      · exact k4

end FlatCV
