/-
The PNG decoder: from samples to colours.
-/
import Verif.Lemmas.PngPass

namespace FlatCV
open Model Png

/-! ### Computations with certain faults -/

/-- The result meets `Q`, or the fault is one of `E`. -/
def Outc {α : Type} (E : Fault → Prop) (m : CM α) (Q : α → Prop) : Prop :=
  match m with
  | .ok r => Q r
  | .error e => E e

theorem Outc.of_ok {α : Type} {E : Fault → Prop} {m : CM α} {Q : α → Prop} (h : Ok m Q) : Outc E m Q := by
  obtain ⟨r, rfl, hr⟩ := h
  exact hr

theorem Outc.pure {α : Type} {E : Fault → Prop} {r : α} {Q : α → Prop} (h : Q r) : Outc E (Pure.pure r) Q := h

theorem Outc.bind {α β : Type} {E : Fault → Prop} {m : CM α} {f : α → CM β} {P : α → Prop} {Q : β → Prop} (h : Outc E m P) (hf : ∀ r, P r → Outc E (f r) Q) : Outc E (m >>= f) Q := by
  cases m with
  | ok r => exact hf r h
  | error e => exact h

theorem Outc.mono {α : Type} {E : Fault → Prop} {m : CM α} {P Q : α → Prop} (h : Outc E m P) (hq : ∀ r, P r → Q r) : Outc E m Q := by
  cases m with
  | ok r => exact hq r h
  | error e => exact h

theorem Outc.monoE {α : Type} {E E' : Fault → Prop} {m : CM α} {P : α → Prop} (h : Outc E m P) (he : ∀ e, E e → E' e) : Outc E' m P := by
  cases m with
  | ok r => exact h
  | error e => exact he e h

theorem Outc.forN {σ : Type} {E : Fault → Prop} {n : Nat} {s : σ} {body : Nat → σ → CM σ} (I : Nat → σ → Prop)
    (h0 : I 0 s) (hstep : ∀ i, i < n → ∀ s, I i s → Outc E (body i s) (I (i + 1))) : Outc E (FlatCV.forN n s body) (I n) := by
  induction n with
  | zero => exact h0
  | succ n ih => exact Outc.bind (ih fun i hi => hstep i (by omega)) fun r hr => hstep n (by omega) r hr

theorem Outc.ok {α : Type} {m : CM α} {E : Fault → Prop} {Q : α → Prop} (h : Outc E m Q) (he : ∀ e, ¬ E e) : Ok m Q := by
  cases m with
  | ok r => exact ⟨r, rfl, h⟩
  | error e => exact absurd h (he e)

/-! ### Loops over the pixels -/

/-- `put_loop` with faults. -/
theorem put_loop_out {E : Fault → Prop} {t : Cells Nat} {x m : Nat} {g : Nat → Nat → Nat} {body : Nat → Cells Nat → CM (Cells Nat)} (hl : t.length = x * m)
    (hb : ∀ i, i < x → ∀ s, Put t s 0 i m g → Outc E (body i s) fun s' => Put s s' (i * m) 1 m fun _ => g i) :
    Outc E (forN x t body) fun s => HoldsPix s x m g := by
  refine (Outc.forN (I := fun i s => Put t s 0 i m g) ⟨rfl, fun i hi => absurd hi (by omega), fun _ _ => rfl⟩ ?_).mono ?_
  · intro i hi s hs
    refine (hb i hi s hs).mono ?_
    rintro s' ⟨h1, h2, h3⟩
    obtain ⟨g1, g2, g3⟩ := hs
    refine ⟨h1.trans g1, fun k hk c hc => ?_, fun q hq => ?_⟩
    · by_cases hki : k = i
      · have := h2 0 (by omega) c hc
        rw [Nat.zero_mul, Nat.zero_add] at this
        rw [hki, Nat.zero_add, this]
      · have hm : k * m + m ≤ i * m := by
          have := Nat.mul_le_mul_right m (show k + 1 ≤ i by omega)
          rwa [Nat.add_mul, Nat.one_mul] at this
        rw [h3 _ (by omega)]
        exact g2 k (by omega) c hc
    · rw [Nat.add_mul, Nat.one_mul] at hq
      rw [h3 q (by omega), g3 q (by omega)]
  · rintro s ⟨h1, h2, _⟩
    refine ⟨h1.trans hl, fun p hp c hc => ?_⟩
    have := h2 p hp c hc
    rwa [Nat.zero_add] at this

/-- What is not written yet. -/
theorem Put.later {t s : Cells Nat} {i m : Nat} {g : Nat → Nat → Nat} (h : Put t s 0 i m g) {q : Nat} (hq : i * m ≤ q) : s[q]? = t[q]? := h.2.2 q (by omega)

theorem mul_block {i x m : Nat} (hi : i < x) : i * m + m ≤ x * m := by
  have := Nat.mul_le_mul_right m (show i + 1 ≤ x by omega)
  rwa [Nat.add_mul, Nat.one_mul] at this

/-- Four values one after the other. -/
theorem put_four {E : Fault → Prop} {s : Cells Nat} {q : Nat} (hq : q + 4 ≤ s.length) (v : Nat → Nat) {m0 m1 m2 m3 : CM Nat}
    (h0 : Outc E m0 fun r => r = v 0) (h1 : Outc E m1 fun r => r = v 1) (h2 : Outc E m2 fun r => r = v 2) (h3 : Outc E m3 fun r => r = v 3) :
    Outc E (do
      let p0 ← m0
      let t ← wr s q p0
      let p1 ← m1
      let t ← wr t (q + 1) p1
      let p2 ← m2
      let t ← wr t (q + 2) p2
      let p3 ← m3
      wr t (q + 3) p3) fun s' => Put s s' q 1 4 fun _ => v := by
  refine Outc.bind h0 ?_
  rintro _ rfl
  rw [wr_ok (by omega), ok_bind]
  refine Outc.bind h1 ?_
  rintro _ rfl
  rw [wr_ok (by rw [List.length_set]; omega), ok_bind]
  refine Outc.bind h2 ?_
  rintro _ rfl
  rw [wr_ok (by rw [List.length_set, List.length_set]; omega), ok_bind]
  refine Outc.bind h3 ?_
  rintro _ rfl
  rw [wr_ok (by rw [List.length_set, List.length_set, List.length_set]; omega)]
  refine Outc.pure ⟨by simp only [List.length_set], fun i hi c hc => ?_, fun k hk => ?_⟩
  · obtain rfl : i = 0 := by omega
    simp only [List.getElem?_set, List.length_set, Nat.zero_mul, Nat.zero_add]
    have : c = 0 ∨ c = 1 ∨ c = 2 ∨ c = 3 := by omega
    rcases this with rfl | rfl | rfl | rfl
    · rw [if_neg (by omega), if_neg (by omega), if_neg (by omega), if_pos (by omega), if_pos (by omega)]
    · rw [if_neg (by omega), if_neg (by omega), if_pos (by omega), if_pos (by omega)]
    · rw [if_neg (by omega), if_pos (by omega), if_pos (by omega)]
    · rw [if_pos (by omega), if_pos (by omega)]
  · simp only [List.getElem?_set]
    rw [if_neg (by omega), if_neg (by omega), if_neg (by omega), if_neg (by omega)]

/-! ### Transparent colours -/

theorem transparency_grey {count full k : Nat} {tc t : Cells Nat} {g : Nat → Nat → Nat} (ht : HoldsPix t count 2 g) (hk : tc[0]? = some (some k)) :
    Ok (compute_transparency count 2 full tc t) fun s => HoldsPix s count 2 fun p c => if c < 1 then g p c else if g p 0 = k then 0 else full := by
  rw [compute_transparency, if_pos rfl]
  refine (put_loop_out (E := fun _ => False) ht.1 ?_).ok (by simp)
  intro i hi s hs
  have hb := mul_block (m := 2) hi
  have e0 : s[i * 2]? = some (some (g i 0)) := by rw [hs.later le_rfl]; exact ht.2 i hi 0 (by omega)
  refine Outc.of_ok ?_
  rw [rd_ok e0, ok_bind, rd_ok hk, ok_bind, wr_ok (by rw [hs.1, ht.1]; omega)]
  refine Ok.pure ⟨by rw [List.length_set], fun j hj c hc => ?_, fun q hq => ?_⟩
  · obtain rfl : j = 0 := by omega
    beta_reduce
    rw [Nat.zero_mul, Nat.zero_add, List.getElem?_set]
    by_cases hc0 : c = 0
    · subst hc0
      rw [if_neg (by omega), if_pos (by omega), Nat.add_zero, e0]
    · obtain rfl : c = 1 := by omega
      rw [if_pos rfl, if_pos (by rw [hs.1, ht.1]; omega), if_neg (show ¬ 1 < 1 by omega)]
  · rw [List.getElem?_set, if_neg (by omega)]

theorem transparency_colour {count full : Nat} {k : Nat → Nat} {tc t : Cells Nat} {g : Nat → Nat → Nat} (ht : HoldsPix t count 4 g) (hk : ∀ c, c < 3 → tc[c]? = some (some (k c))) :
    Ok (compute_transparency count 4 full tc t) fun s => HoldsPix s count 4 fun p c => if c < 3 then g p c else if g p 0 = k 0 ∧ g p 1 = k 1 ∧ g p 2 = k 2 then 0 else g p 3 := by
  rw [compute_transparency, if_neg (by omega)]
  refine (put_loop_out (E := fun _ => False) ht.1 ?_).ok (by simp)
  intro i hi s hs
  have hb := mul_block (m := 4) hi
  have e : ∀ c, c < 4 → s[i * 4 + c]? = some (some (g i c)) := fun c hc => by rw [hs.later (by omega)]; exact ht.2 i hi c hc
  have same : ¬ (g i 0 = k 0 ∧ g i 1 = k 1 ∧ g i 2 = k 2) →
      Put s s (i * 4) 1 4 fun _ => fun c => if c < 3 then g i c else if g i 0 = k 0 ∧ g i 1 = k 1 ∧ g i 2 = k 2 then 0 else g i 3 := by
    intro hn
    refine ⟨rfl, fun j hj c hc => ?_, fun _ _ => rfl⟩
    obtain rfl : j = 0 := by omega
    beta_reduce
    rw [Nat.zero_mul, Nat.zero_add, e c hc, if_neg hn]
    by_cases h3 : c < 3
    · rw [if_pos h3]
    · obtain rfl : c = 3 := by omega
      rw [if_neg h3]
  refine Outc.of_ok ?_
  rw [rd_ok (show s[i * 4]? = _ from e 0 (by omega)), ok_bind, rd_ok (hk 0 (by omega)), ok_bind]
  by_cases h0 : g i 0 = k 0
  swap
  · rw [if_neg h0]
    exact Ok.pure' (same (by tauto))
  rw [if_pos h0, rd_ok (e 1 (by omega)), ok_bind, rd_ok (hk 1 (by omega)), ok_bind]
  by_cases h1 : g i 1 = k 1
  swap
  · rw [if_neg h1]
    exact Ok.pure' (same (by tauto))
  rw [if_pos h1, rd_ok (e 2 (by omega)), ok_bind, rd_ok (hk 2 (by omega)), ok_bind]
  by_cases h2 : g i 2 = k 2
  swap
  · rw [if_neg h2]
    exact Ok.pure' (same (by tauto))
  rw [if_pos h2, wr_ok (by rw [hs.1, ht.1]; omega)]
  refine Ok.pure ⟨by rw [List.length_set], fun j hj c hc => ?_, fun q hq => ?_⟩
  · obtain rfl : j = 0 := by omega
    beta_reduce
    rw [Nat.zero_mul, Nat.zero_add, List.getElem?_set]
    by_cases h3 : c < 3
    · rw [if_neg (by omega), if_pos h3, e c hc]
    · obtain rfl : c = 3 := by omega
      rw [if_pos rfl, if_pos (by rw [hs.1, ht.1]; omega), if_neg (by omega), if_pos ⟨h0, h1, h2⟩]
  · rw [List.getElem?_set, if_neg (by omega)]

/-! ### Palettes -/

/-- A byte of the palette. -/
def palByte (pal : Cells UInt8) (q : Nat) : Nat := ((pal.getD q none).getD 0).toNat

theorem palette_ok {m : PngMem} {count n : Nat} {pal : Cells UInt8} {t : Cells Nat} {v : Nat → Nat} (hp : pal.length = 1024) (ht : ∀ p, p < count → t[p]? = some (some (v p)))
    (hv : ∀ p, p < count → v p < 256) (hi : ∀ q, q < n * 4 → ∃ b, pal[q]? = some (some b)) :
    Outc (fun e => e = .uninitRead ∧ ∃ p, p < count ∧ n ≤ v p) (expand_png_palette m count pal t) fun r =>
      (∀ s, r = some s → HoldsPix s count 4 fun p c => palByte pal (v p * 4 + c)) ∧ (r = none → m.palette = true → count * 4 ≤ 2147483647 → False) := by
  rw [expand_png_palette]
  by_cases c1 : (!(mad2ok count 4 0 && m.palette)) = true
  · rw [if_pos c1]
    refine Outc.pure ⟨fun s hs => (by cases hs), fun _ h1 h2 => ?_⟩
    rw [mad2ok_of (by omega), h1] at c1
    cases c1
  rw [if_neg c1]
  have look : ∀ p, p < count → ∀ c, c < 4 → Outc (fun e => e = .uninitRead ∧ ∃ p, p < count ∧ n ≤ v p) (do let b ← rd pal (v p * 4 + c); pure b.toNat : CM Nat)
      fun r => r = palByte pal (v p * 4 + c) := by
    intro p hp' c hc
    have hlt := hv p hp'
    cases hq : pal[v p * 4 + c]? with
    | none =>
      rw [List.getElem?_eq_none_iff] at hq
      omega
    | some o =>
      cases o with
      | none =>
        rw [rd, hq]
        refine ⟨rfl, p, hp', ?_⟩
        by_contra hn
        obtain ⟨b, hb⟩ := hi (v p * 4 + c) (by omega)
        rw [hq] at hb
        cases hb
      | some b =>
        rw [rd_ok hq, ok_bind]
        refine Outc.pure ?_
        rw [palByte, List.getD_eq_getElem?_getD, hq]
        rfl
  refine Outc.bind (put_loop_out (m := 4) (g := fun p c => palByte pal (v p * 4 + c)) (by simp) ?_) ?_
  · intro i hi' s hs
    have hb := mul_block (m := 4) hi'
    rw [rd_ok (ht i hi'), ok_bind]
    have := put_four (s := s) (q := i * 4) (by rw [hs.1, List.length_replicate]; exact hb) (fun c => palByte pal (v i * 4 + c))
      (look i hi' 0 (by omega)) (look i hi' 1 (by omega)) (look i hi' 2 (by omega)) (look i hi' 3 (by omega))
    simpa only [bind_assoc, pure_bind', Nat.add_zero] using this
  · intro s hs
    exact Outc.pure ⟨fun s' e => by cases e; exact hs, fun e => (by cases e)⟩

/-! ### Four channels -/

/-- The channels of a pixel with `n` channels as four. -/
def four (n full : Nat) (g : Nat → Nat) (c : Nat) : Nat := if n = 4 then g c else if c < 3 then g 0 else if n = 2 then g 1 else full

theorem toFour_ok {count n full : Nat} {src t : Cells Nat} {g : Nat → Nat → Nat} (hn : n = 1 ∨ n = 2) (hs : HoldsPix src count n g) (ht : t.length = count * 4) :
    Ok (toFour count n full src t) fun s => HoldsPix s count 4 fun p => four n full (g p) := by
  rw [toFour]
  refine (put_loop_out (E := fun _ => False) ht ?_).ok (by simp)
  intro i hi s hst
  have hb := mul_block (m := 4) hi
  have e0 : src[i * n]? = some (some (g i 0)) := by have := hs.2 i hi 0 (by omega); rwa [Nat.add_zero] at this
  have r3 : rdIf (n = 2) src (i * n + 1) full = .ok (four n full (g i) 3) := by
    rw [rdIf, four, if_neg (show ¬ n = 4 by omega), if_neg (show ¬ 3 < 3 by omega)]
    by_cases h2 : n = 2
    · rw [if_pos h2, if_pos h2]
      exact rd_ok (hs.2 i hi 1 (by omega))
    · rw [if_neg h2, if_neg h2]
      rfl
  have r12 : ∀ q, rdIf (n = 3) src q (g i 0) = .ok (g i 0) := fun q => by rw [rdIf, if_neg (by omega)]; rfl
  rw [rd_ok e0, ok_bind, r12, ok_bind, r12, ok_bind, r3, ok_bind]
  have hv : ∀ c, c < 3 → g i 0 = four n full (g i) c := fun c hc => by rw [four, if_neg (by omega), if_pos hc]
  have := put_four (E := fun _ => False) (s := s) (q := i * 4) (by rw [hst.1, ht]; exact hb) (four n full (g i))
    (m0 := pure (g i 0)) (m1 := pure (g i 0)) (m2 := pure (g i 0)) (m3 := pure (four n full (g i) 3)) (hv 0 (by omega)) (hv 1 (by omega)) (hv 2 (by omega)) rfl
  simpa only [pure_bind'] using this

theorem reduce_ok {m : PngMem} {x y : Nat} {t : Cells Nat} {g : Nat → Nat → Nat} (ht : HoldsPix t (x * y) 4 g) (hs : x * y * 4 ≤ 2147483647) :
    Ok (convert_16_to_8 m x y t) fun r => (∀ s, r = some s → HoldsPix s (x * y) 4 fun p c => g p c / 256 % 256) ∧ (r = none → m.reduce = true → False) := by
  rw [convert_16_to_8, i32_ok (by constructor <;> omega), ok_bind, i32_ok (by constructor <;> omega), ok_bind]
  have e : ((x : Int) * y * 4).toNat = x * y * 4 := by omega
  rw [e]
  cases hm : m.reduce with
  | false => exact Ok.pure' ⟨fun s h => (by cases h), fun _ h => (by cases h)⟩
  | true =>
    rw [if_pos rfl]
    refine Ok.bind ((put_loop_out (E := fun _ => False) (x := x * y * 4) (m := 1) (g := fun q _ => g (q / 4) (q % 4) / 256 % 256) (by simp) ?_).ok (by simp)) ?_
    · intro i hi s hs'
      have := ht.2 (i / 4) (by omega) (i % 4) (by omega)
      rw [show i / 4 * 4 + i % 4 = i by omega] at this
      rw [rd_ok this, ok_bind, Nat.mul_one]
      exact Outc.of_ok (Put.wr1 (by rw [hs'.1, List.length_replicate]; exact hi))
    · rintro s ⟨h1, h2⟩
      refine Ok.pure' ⟨fun s' e => ?_, fun e => (by cases e)⟩
      cases e
      refine ⟨by rw [h1, Nat.mul_one], fun p hp c hc => ?_⟩
      have := h2 (p * 4 + c) (by omega) 0 (by omega)
      beta_reduce at this ⊢
      rwa [Nat.mul_one, Nat.add_zero, show (p * 4 + c) / 4 = p by omega, show (p * 4 + c) % 4 = c by omega] at this

end FlatCV
