/-
The rows of the PNG decoder: from bytes to samples, with an alpha channel where one is added.
-/
import Verif.Lemmas.PngUnfilter

namespace FlatCV
open Model Png

/-- `t'` is `t` with `x` pixels of `m` samples at `dest`. -/
def Put (t t' : Cells Nat) (dest x m : Nat) (g : Nat → Nat → Nat) : Prop :=
  t'.length = t.length ∧ (∀ i, i < x → ∀ c, c < m → t'[dest + (i * m + c)]? = some (some (g i c))) ∧
    ∀ q, (q < dest ∨ dest + x * m ≤ q) → t'[q]? = t[q]?

/-- The loop that writes pixel after pixel. -/
theorem put_loop {t : Cells Nat} {dest x m : Nat} {g : Nat → Nat → Nat} {body : Nat → Cells Nat → CM (Cells Nat)}
    (hb : ∀ i, i < x → ∀ s, Put t s dest i m g → Ok (body i s) fun s' => Put s s' (dest + i * m) 1 m fun _ => g i) :
    Ok (forN x t body) fun s => Put t s dest x m g := by
  refine forN_ok (I := fun i s => Put t s dest i m g) ⟨rfl, fun i hi => absurd hi (by omega), fun _ _ => rfl⟩ ?_
  intro i hi s hs
  refine (hb i hi s hs).mono ?_
  rintro s' ⟨h1, h2, h3⟩
  obtain ⟨g1, g2, g3⟩ := hs
  refine ⟨h1.trans g1, fun k hk c hc => ?_, fun q hq => ?_⟩
  · by_cases hki : k = i
    · have := h2 0 (by omega) c hc
      rw [Nat.zero_mul, Nat.zero_add, Nat.add_assoc] at this
      rw [hki, this]
    · have hm : k * m + m ≤ i * m := by
        have := Nat.mul_le_mul_right m (show k + 1 ≤ i by omega)
        rwa [Nat.add_mul, Nat.one_mul] at this
      rw [h3 _ (by omega)]
      exact g2 k (by omega) c hc
  · rw [Nat.add_mul, Nat.one_mul] at hq
    rw [h3 q (by omega), g3 q (by omega)]

theorem Put.one {s : Cells Nat} {d v : Nat} (h : d < s.length) : Put s (s.set d (some v)) d 1 1 fun _ _ => v := by
  refine ⟨List.length_set, fun i hi c hc => ?_, fun q hq => ?_⟩
  · obtain rfl : i = 0 := by omega
    obtain rfl : c = 0 := by omega
    simp [h]
  · rw [List.getElem?_set, if_neg (by omega)]

theorem Put.wr1 {s : Cells Nat} {d v : Nat} (h : d < s.length) : Ok (wr s d v) fun s' => Put s s' d 1 1 fun _ _ => v := by
  rw [wr_ok h]
  exact Ok.pure (Put.one h)

/-! ### Samples of less than 8 bits -/

theorem bit_piece {d r b : Nat} (hd : d = 1 ∨ d = 2 ∨ d = 4) (hr : r < 8 / d) (hb : b < 256) :
    b * 2 ^ (d * r) % 256 / 2 ^ (8 - d) = b / 2 ^ (8 - d - d * r) % 2 ^ d := by
  rcases hd with rfl | rfl | rfl
  · have : r = 0 ∨ r = 1 ∨ r = 2 ∨ r = 3 ∨ r = 4 ∨ r = 5 ∨ r = 6 ∨ r = 7 := by omega
    rcases this with rfl | rfl | rfl | rfl | rfl | rfl | rfl | rfl <;> norm_num <;> omega
  · have : r = 0 ∨ r = 1 ∨ r = 2 ∨ r = 3 := by omega
    rcases this with rfl | rfl | rfl | rfl <;> norm_num <;> omega
  · have : r = 0 ∨ r = 1 := by omega
    rcases this with rfl | rfl <;> norm_num <;> omega

theorem per_arith {d i : Nat} (hd : d = 1 ∨ d = 2 ∨ d = 4) : i * d / 8 = i / (8 / d) ∧ i * d % 8 = d * (i % (8 / d)) := by
  rcases hd with rfl | rfl | rfl <;> norm_num <;> omega

/-- The byte of which sample `i` is a part. -/
def sampleByte (row : List UInt8) (d i : Nat) : Nat := (row.getD (i / (8 / d)) 0).toNat

theorem sampleAt_bits {d i : Nat} (hd : d = 1 ∨ d = 2 ∨ d = 4) (row : List UInt8) :
    sampleAt d row i = sampleByte row d i * 2 ^ (d * (i % (8 / d))) % 256 / 2 ^ (8 - d) := by
  have hr : i % (8 / d) < 8 / d := Nat.mod_lt _ (by rcases hd with rfl | rfl | rfl <;> decide)
  rw [sampleAt, if_neg (by omega), (per_arith hd).1, (per_arith hd).2, sampleByte, bit_piece hd hr (UInt8.toNat_lt _)]

theorem sampleAt_8 (row : List UInt8) (i : Nat) : sampleAt 8 row i = (row.getD i 0).toNat := by
  have := (row.getD i 0).toNat_lt
  rw [sampleAt, if_neg (by omega), Nat.mul_div_cancel _ (by omega), Nat.mul_mod_left]
  simp only [Nat.sub_self, Nat.pow_zero, Nat.div_one]
  omega

theorem expandBits_ok {row : List UInt8} {cur nk : Nat} {f : Cells UInt8} {dest nsmp d scale : Nat} {t : Cells Nat} (hd : d = 1 ∨ d = 2 ∨ d = 4)
    (hf : ∀ i, i < nk → f[cur + i]? = some (some (row.getD i 0))) (hn : (nsmp * d + 7) / 8 ≤ nk) (hl : dest + nsmp ≤ t.length) :
    Ok (expandBits cur f dest nsmp d scale t) fun s => Put t s dest nsmp 1 fun i _ => scale * sampleAt d row i % 256 := by
  rw [expandBits]
  have hper : 0 < 8 / d := by rcases hd with rfl | rfl | rfl <;> decide
  have key := forN_ok (n := nsmp) (s := ((t, 0, 0) : Cells Nat × Nat × Nat)) (body := fun i r => do
      let q ← nextIn cur f d i r.2
      let t ← wr r.1 (dest + i) (scale * (q.1 / 2 ^ (8 - d)) % 256)
      Pure.pure (t, q.1 * 2 ^ d % 256, q.2))
    (fun i r => Put t r.1 dest i 1 (fun i _ => scale * sampleAt d row i % 256) ∧ r.2.2 = (i + (8 / d - 1)) / (8 / d) ∧
      (i % (8 / d) ≠ 0 → r.2.1 = sampleByte row d i * 2 ^ (d * (i % (8 / d))) % 256))
    ⟨⟨rfl, fun i hi => absurd hi (by omega), fun _ _ => rfl⟩, by rw [Nat.zero_add, Nat.div_eq_of_lt (by omega)], by simp⟩ ?_
  · refine Ok.bind key ?_
    rintro r ⟨h, _⟩
    exact Ok.pure' h
  · rintro i hi ⟨s, inb, pos⟩ ⟨hs, hpos, hin⟩
    simp only at hs hpos hin
    have hq : nextIn cur f d i (inb, pos) = .ok (sampleByte row d i * 2 ^ (d * (i % (8 / d))) % 256, (i + 1 + (8 / d - 1)) / (8 / d)) := by
      rw [nextIn]
      have hb := (row.getD (i / (8 / d)) 0).toNat_lt
      by_cases h0 : i % (8 / d) = 0
      · have e : pos = i / (8 / d) := by
          rw [hpos]
          rcases hd with rfl | rfl | rfl <;> norm_num at h0 ⊢ <;> omega
        rw [if_pos h0, e, rd_ok (hf _ ?_), ok_bind, h0, Nat.mul_zero, Nat.pow_zero, Nat.mul_one, sampleByte, Nat.mod_eq_of_lt hb]
        · simp only [Pure.pure, Except.pure]
          congr 2
          rcases hd with rfl | rfl | rfl <;> norm_num at h0 ⊢ <;> omega
        · rcases hd with rfl | rfl | rfl <;> norm_num at hn ⊢ <;> omega
      · rw [if_neg h0, hin h0]
        simp only [Pure.pure, Except.pure]
        congr 2
        rw [hpos]
        rcases hd with rfl | rfl | rfl <;> norm_num at h0 ⊢ <;> omega
    rw [hq, ok_bind]
    obtain ⟨g1, g2, g3⟩ := hs
    simp only
    rw [← sampleAt_bits hd, wr_ok (by rw [g1]; omega), ok_bind]
    refine Ok.pure' ⟨⟨by rw [List.length_set, g1], fun k hk c hc => ?_, fun q hq => ?_⟩, rfl, fun h0 => ?_⟩
    · obtain rfl : c = 0 := by omega
      simp only [Nat.mul_one, Nat.add_zero] at g2 ⊢
      rw [List.getElem?_set]
      split_ifs with e1 e2
      · rw [show k = i by omega]
      · omega
      · have := g2 k (by omega) 0 (by omega)
        simpa using this
    · rw [List.getElem?_set, if_neg (by omega), g3 q (by omega)]
    · have hlt := Nat.mod_lt i hper
      have h1 : (i + 1) % (8 / d) = i % (8 / d) + 1 := by
        rcases hd with rfl | rfl | rfl <;> norm_num at h0 ⊢ <;> omega
      have h2 : (i + 1) / (8 / d) = i / (8 / d) := by
        rcases hd with rfl | rfl | rfl <;> norm_num at h0 ⊢ <;> omega
      show sampleByte row d i * 2 ^ (d * (i % (8 / d))) % 256 * 2 ^ d % 256 = _
      rw [h1, Nat.mul_add, Nat.mul_one, Nat.pow_add, sampleByte, sampleByte, h2, ← Nat.mul_assoc, Nat.mod_mul_mod]

/-! ### An alpha channel -/

/-- Reading sample `q` of the source gives `v q` as long as the block from `dest` on is still that of `t` up to some index beyond `q`. -/
def SrcOk (src : Cells Nat → Nat → CM Nat) (t : Cells Nat) (dest count : Nat) (v : Nat → Nat) : Prop :=
  ∀ s lim q, s.length = t.length → (∀ i, i < lim → s[dest + i]? = t[dest + i]?) → q < lim → q < count → src s q = .ok (v q)

theorem alpha_expand8_ok {src : Cells Nat → Nat → CM Nat} {t : Cells Nat} {dest x n : Nat} {v : Nat → Nat} (hn : n = 1 ∨ n = 3)
    (hs : SrcOk src t dest (x * n) v) (hl : dest + x * (n + 1) ≤ t.length) :
    Ok (alpha_expand8 src dest x n t) fun s => Put t s dest x (n + 1) fun i c => if c < n then v (i * n + c) else 255 := by
  have fin : ∀ s : Cells Nat, (s.length = t.length ∧ (∀ i, i < x → x - x ≤ i → ∀ c, c < n + 1 → s[dest + (i * (n + 1) + c)]? = some (some (if c < n then v (i * n + c) else 255))) ∧
      ∀ q, (q < dest + (x - x) * (n + 1) ∨ dest + x * (n + 1) ≤ q) → s[q]? = t[q]?) → Put t s dest x (n + 1) fun i c => if c < n then v (i * n + c) else 255 := by
    rintro s ⟨h1, h2, h3⟩
    refine ⟨h1, fun i hi c hc => h2 i hi (by omega) c hc, fun q hq => h3 q ?_⟩
    rw [Nat.sub_self, Nat.zero_mul]
    omega
  rw [alpha_expand8]
  rcases hn with rfl | rfl
  · rw [if_pos rfl]
    refine (forN_ok (I := fun k s => s.length = t.length ∧ (∀ i, i < x → x - k ≤ i → ∀ c, c < 1 + 1 → s[dest + (i * (1 + 1) + c)]? = some (some (if c < 1 then v (i * 1 + c) else 255))) ∧
      ∀ q, (q < dest + (x - k) * (1 + 1) ∨ dest + x * (1 + 1) ≤ q) → s[q]? = t[q]?) ⟨rfl, fun i hi h => absurd h (by omega), fun _ _ => rfl⟩ ?_).mono fin
    rintro k hk s ⟨h1, h2, h3⟩
    obtain ⟨i, hi⟩ : ∃ i, i = x - 1 - k := ⟨_, rfl⟩
    simp only [← hi]
    rw [wr_ok (by omega), ok_bind, hs _ (i * 2 + 1) i (by rw [List.length_set, h1]) (fun q hq => by
      rw [List.getElem?_set, if_neg (by omega)]
      exact h3 _ (by omega)) (by omega) (by omega), ok_bind, wr_ok (by rw [List.length_set]; omega)]
    refine Ok.pure ⟨by simp [h1], fun j hj1 hj2 c hc => ?_, fun q hq => ?_⟩
    · simp only [List.getElem?_set, List.length_set]
      have hc' : c = 0 ∨ c = 1 := by omega
      by_cases e : j = i
      · subst e
        rcases hc' with rfl | rfl
        · rw [if_pos (by omega), if_pos (by omega), if_pos (by omega), Nat.mul_one, Nat.add_zero]
        · rw [if_neg (by omega), if_pos (by omega), if_pos (by omega), if_neg (by omega)]
      · rw [if_neg (by omega), if_neg (by omega)]
        exact h2 j hj1 (by omega) c hc
    · simp only [List.getElem?_set, List.length_set]
      rw [if_neg (by omega), if_neg (by omega)]
      exact h3 q (by omega)
  · rw [if_neg (by omega)]
    refine (forN_ok (I := fun k s => s.length = t.length ∧ (∀ i, i < x → x - k ≤ i → ∀ c, c < 3 + 1 → s[dest + (i * (3 + 1) + c)]? = some (some (if c < 3 then v (i * 3 + c) else 255))) ∧
      ∀ q, (q < dest + (x - k) * (3 + 1) ∨ dest + x * (3 + 1) ≤ q) → s[q]? = t[q]?) ⟨rfl, fun i hi h => absurd h (by omega), fun _ _ => rfl⟩ ?_).mono fin
    rintro k hk s ⟨h1, h2, h3⟩
    obtain ⟨i, hi⟩ : ∃ i, i = x - 1 - k := ⟨_, rfl⟩
    simp only [← hi]
    rw [wr_ok (by omega), ok_bind, hs _ (i * 4 + 3) (i * 3 + 2) (by rw [List.length_set, h1]) (fun q hq => by
      rw [List.getElem?_set, if_neg (by omega)]
      exact h3 _ (by omega)) (by omega) (by omega), ok_bind, wr_ok (by rw [List.length_set]; omega), ok_bind,
      hs _ (i * 4 + 2) (i * 3 + 1) (by simp [h1]) (fun q hq => by
      rw [List.getElem?_set, if_neg (by omega), List.getElem?_set, if_neg (by omega)]
      exact h3 _ (by omega)) (by omega) (by omega), ok_bind, wr_ok (by simp only [List.length_set]; omega), ok_bind,
      hs _ (i * 4 + 1) (i * 3) (by simp [h1]) (fun q hq => by
      rw [List.getElem?_set, if_neg (by omega), List.getElem?_set, if_neg (by omega), List.getElem?_set, if_neg (by omega)]
      exact h3 _ (by omega)) (by omega) (by omega), ok_bind, wr_ok (by simp only [List.length_set]; omega)]
    refine Ok.pure ⟨by simp [h1], fun j hj1 hj2 c hc => ?_, fun q hq => ?_⟩
    · simp only [List.getElem?_set, List.length_set]
      have hc' : c = 0 ∨ c = 1 ∨ c = 2 ∨ c = 3 := by omega
      by_cases e : j = i
      · subst e
        rcases hc' with rfl | rfl | rfl | rfl
        · rw [if_pos (by omega), if_pos (by omega), if_pos (by omega), Nat.add_zero]
        · rw [if_neg (by omega), if_pos (by omega), if_pos (by omega), if_pos (by omega)]
        · rw [if_neg (by omega), if_neg (by omega), if_pos (by omega), if_pos (by omega), if_pos (by omega)]
        · rw [if_neg (by omega), if_neg (by omega), if_neg (by omega), if_pos (by omega), if_pos (by omega), if_neg (by omega)]
      · rw [if_neg (by omega), if_neg (by omega), if_neg (by omega), if_neg (by omega)]
        exact h2 j hj1 (by omega) c hc
    · simp only [List.getElem?_set, List.length_set]
      rw [if_neg (by omega), if_neg (by omega), if_neg (by omega), if_neg (by omega)]
      exact h3 q (by omega)

/-! ### 16 bits -/

theorem rd16_ok {row : List UInt8} {cur nk : Nat} {f : Cells UInt8} {i : Nat} (hf : ∀ i, i < nk → f[cur + i]? = some (some (row.getD i 0))) (hi : 2 * i + 1 < nk)
    {k : Nat} (hk : k = cur + 2 * i) : rd16 f k = .ok (sampleAt 16 row i) := by
  subst hk
  rw [rd16, rd_ok (hf _ (by omega)), ok_bind, Nat.add_assoc, rd_ok (hf _ (by omega)), ok_bind, sampleAt, if_pos rfl]
  rfl

theorem expand16_ok {row : List UInt8} {cur nk : Nat} {f : Cells UInt8} {dest x n outN : Nat} {t : Cells Nat} (hn : outN = n ∨ (outN = n + 1 ∧ (n = 1 ∨ n = 3)))
    (hf : ∀ i, i < nk → f[cur + i]? = some (some (row.getD i 0))) (hx : x * n * 2 ≤ nk) (hl : dest + x * outN ≤ t.length) :
    Ok (expand16 cur f dest x n outN t) fun s => Put t s dest x outN fun i c => if c < n then sampleAt 16 row (i * n + c) else 65535 := by
  rw [expand16]
  rcases hn with rfl | ⟨rfl, rfl | rfl⟩
  · rw [if_pos rfl]
    have := put_loop (t := t) (dest := dest) (x := x * outN) (m := 1) (g := fun i _ => sampleAt 16 row i) (body := fun i t => do
      let v ← rd16 f (cur + 2 * i)
      wr t (dest + i) v) (fun i hi s hs => by
        rw [rd16_ok hf (by omega) rfl, ok_bind, Nat.mul_one]
        exact Put.wr1 (by rw [hs.1]; omega))
    refine this.mono ?_
    rintro s ⟨h1, h2, h3⟩
    refine ⟨h1, fun i hi c hc => ?_, fun q hq => h3 q (by omega)⟩
    have hm : i * outN + outN ≤ x * outN := by
      have := Nat.mul_le_mul_right outN (show i + 1 ≤ x by omega)
      rwa [Nat.add_mul, Nat.one_mul] at this
    have := h2 (i * outN + c) (by omega) 0 (by omega)
    rw [Nat.mul_one, Nat.add_zero] at this
    rw [this]
    simp only [if_pos hc]
  · rw [if_neg (by omega), if_pos rfl]
    refine put_loop (m := 1 + 1) (fun i hi s hs => ?_)
    rw [rd16_ok hf (i := i) (by omega) rfl, ok_bind, wr_ok (by rw [hs.1]; omega), ok_bind, wr_ok (by rw [List.length_set, hs.1]; omega)]
    have hl' := hs.1
    refine Ok.pure ⟨by simp, fun j hj c hc => ?_, fun q hq => ?_⟩
    · obtain rfl : j = 0 := by omega
      have hc' : c = 0 ∨ c = 1 := by omega
      simp only [List.getElem?_set, List.length_set]
      rcases hc' with rfl | rfl
      · rw [if_neg (by omega), if_pos (by omega), if_pos (by omega), if_pos (by omega), Nat.mul_one, Nat.add_zero]
      · rw [if_pos (by omega), if_pos (by omega), if_neg (by omega)]
    · simp only [List.getElem?_set, List.length_set]
      rw [if_neg (by omega), if_neg (by omega)]
  · rw [if_neg (by omega), if_neg (by omega)]
    refine put_loop (m := 3 + 1) (fun i hi s hs => ?_)
    rw [rd16_ok hf (i := 3 * i) (by omega) (by omega), ok_bind, wr_ok (by rw [hs.1]; omega), ok_bind, rd16_ok hf (i := 3 * i + 1) (by omega) (by omega), ok_bind,
      wr_ok (by rw [List.length_set, hs.1]; omega), ok_bind, rd16_ok hf (i := 3 * i + 2) (by omega) (by omega), ok_bind,
      wr_ok (by simp only [List.length_set, hs.1]; omega), ok_bind, wr_ok (by simp only [List.length_set, hs.1]; omega)]
    have hl' := hs.1
    refine Ok.pure ⟨by simp, fun j hj c hc => ?_, fun q hq => ?_⟩
    · obtain rfl : j = 0 := by omega
      have hc' : c = 0 ∨ c = 1 ∨ c = 2 ∨ c = 3 := by omega
      simp only [List.getElem?_set, List.length_set]
      rcases hc' with rfl | rfl | rfl | rfl
      · rw [if_neg (by omega), if_neg (by omega), if_neg (by omega), if_pos (by omega), if_pos (by omega), if_pos (by omega), Nat.add_zero, Nat.mul_comm]
      · rw [if_neg (by omega), if_neg (by omega), if_pos (by omega), if_pos (by omega), if_pos (by omega), Nat.mul_comm]
      · rw [if_neg (by omega), if_pos (by omega), if_pos (by omega), if_pos (by omega), Nat.mul_comm]
      · rw [if_pos (by omega), if_pos (by omega), if_neg (by omega)]
    · simp only [List.getElem?_set, List.length_set]
      rw [if_neg (by omega), if_neg (by omega), if_neg (by omega), if_neg (by omega)]

/-! ### A row -/

/-- What is storedV for a sample: grey values of less than 8 bits are scaled. -/
def storedV (depth color v : Nat) : Nat := if depth < 8 then (if color = 0 then depth_scale_table.getD depth 0 else 1) * v % 256 else v

/-- The added alpha. -/
def opaque' (depth : Nat) : Nat := if depth = 16 then 65535 else 255

/-- A pixel of a row. -/
def rowPixel (depth color n : Nat) (row : List UInt8) (i c : Nat) : Nat :=
  if c < n then storedV depth color (sampleAt depth row (i * n + c)) else opaque' depth

theorem expandRow_ok {row : List UInt8} {cur nk : Nat} {f : Cells UInt8} {dest x n outN depth color : Nat} {t : Cells Nat} (hd : depth ∈ [1, 2, 4, 8, 16])
    (hn : outN = n ∨ (outN = n + 1 ∧ (n = 1 ∨ n = 3))) (hf : ∀ i, i < nk → f[cur + i]? = some (some (row.getD i 0))) (hx : (x * n * depth + 7) / 8 ≤ nk)
    (hl : dest + x * outN ≤ t.length) :
    Ok (expandRow cur f dest x n outN depth color t) fun s => Put t s dest x outN (rowPixel depth color n row) := by
  have hxn : x * n ≤ x * outN := Nat.mul_le_mul_left _ (by omega)
  rw [expandRow]
  have flat : ∀ {u s : Cells Nat} {v : Nat → Nat}, Put u s dest (x * n) 1 (fun i _ => v i) → Put u s dest x n fun i c => v (i * n + c) := by
    rintro u s v ⟨h1, h2, h3⟩
    refine ⟨h1, fun i hi c hc => ?_, fun q hq => h3 q (by omega)⟩
    have hm : i * n + n ≤ x * n := by
      have := Nat.mul_le_mul_right n (show i + 1 ≤ x by omega)
      rwa [Nat.add_mul, Nat.one_mul] at this
    have := h2 (i * n + c) (by omega) 0 (by omega)
    rwa [Nat.mul_one, Nat.add_zero] at this
  have same : ∀ {u s : Cells Nat}, outN = n → Put u s dest x n (fun i c => storedV depth color (sampleAt depth row (i * n + c))) → Put u s dest x outN (rowPixel depth color n row) := by
    rintro u s rfl ⟨h1, h2, h3⟩
    exact ⟨h1, fun i hi c hc => by rw [h2 i hi c hc, rowPixel, if_pos hc], h3⟩
  by_cases h8 : depth < 8
  · have hd' : depth = 1 ∨ depth = 2 ∨ depth = 4 := by
      simp only [List.mem_cons, List.not_mem_nil, or_false] at hd
      omega
    rw [if_pos h8]
    have hsc : rowScale depth color = .ok (if color = 0 then depth_scale_table.getD depth 0 else 1) := by
      rw [rowScale]
      split_ifs
      · rcases hd' with rfl | rfl | rfl <;> rfl
      · rfl
    rw [hsc, ok_bind]
    refine Ok.bind (expandBits_ok (nsmp := x * n) (dest := dest) (t := t) hd' hf hx (by omega)) ?_
    intro s hs
    have hs' : Put t s dest (x * n) 1 fun i _ => storedV depth color (sampleAt depth row i) := by
      simpa only [storedV, if_pos h8] using hs
    rcases hn with e | ⟨e, hn⟩
    · rw [if_pos e.symm]
      exact Ok.pure' (same e (flat hs'))
    · rw [if_neg (by omega)]
      subst e
      have h1 := hs'.1
      refine (alpha_expand8_ok (v := fun i => storedV depth color (sampleAt depth row i)) hn ?_ (by omega)).mono ?_
      · intro u lim q hu hlim hq hq'
        refine rd_ok ?_
        rw [hlim q hq]
        have := hs'.2.1 q hq' 0 (by omega)
        rwa [Nat.mul_one, Nat.add_zero] at this
      · rintro u ⟨g1, g2, g3⟩
        have ho : opaque' depth = 255 := by rw [opaque', if_neg (by omega)]
        refine ⟨g1.trans h1, fun i hi c hc => ?_, fun q hq => ?_⟩
        · rw [g2 i hi c hc, rowPixel, ho]
        · rw [g3 q hq, hs'.2.2 q (by omega)]
  · rw [if_neg h8]
    by_cases h8' : depth = 8
    · rw [if_pos h8']
      subst h8'
      have hst : ∀ i, storedV 8 color (sampleAt 8 row i) = (row.getD i 0).toNat := fun i => by rw [sampleAt_8]; rfl
      rcases hn with e | ⟨e, hn⟩
      · rw [if_pos e.symm]
        have := put_loop (t := t) (dest := dest) (x := x * n) (m := 1) (g := fun i _ => storedV 8 color (sampleAt 8 row i)) (body := fun i t => do
          let v ← rd f (cur + i)
          wr t (dest + i) v.toNat) (fun i hi s hs => by
            rw [rd_ok (hf i (by omega)), ok_bind, Nat.mul_one]
            simp only [hst]
            exact Put.wr1 (by rw [hs.1]; omega))
        exact this.mono fun s hs => same e (flat hs)
      · rw [if_neg (by omega)]
        subst e
        refine (alpha_expand8_ok (v := fun i => storedV 8 color (sampleAt 8 row i)) hn ?_ (by omega)).mono ?_
        · intro u lim q hu hlim hq hq'
          simp only
          rw [rd_ok (hf q (by omega)), ok_bind, hst]
          rfl
        · intro u hu
          exact hu
    · rw [if_neg h8']
      have hd' : depth = 16 := by
        simp only [List.mem_cons, List.not_mem_nil, or_false] at hd
        omega
      subst hd'
      exact expand16_ok hn hf (by omega) hl

end FlatCV
