import Verif.Lemmas.JpegWritten

/-! Helper lemmas: components of one value. -/

namespace FlatCV
open Model Jpg Props

theorem cos_flat {u : ℕ} (hu : u < 8) : ∑ x ∈ Finset.range 8, Real.cos ((2 * (x : ℝ) + 1) * u * Real.pi / 16) = if u = 0 then 8 else 0 := by
  by_cases h : u = 0
  · rw [if_pos h, h]
    simp
  · rw [if_neg h, ← cos_sum_freq (n := u) (by omega) (by omega)]
    refine Finset.sum_congr rfl fun x _ => ?_
    congr 1
    ring

/-- The transform of a block of one value. -/
theorem dct_flat {f : ℕ → ℕ → ℝ} {m : ℝ} (hf : ∀ y x, f y x = m) {v u : ℕ} (hv : v < 8) (hu : u < 8) :
    dct f v u = if v = 0 ∧ u = 0 then 8 * m else 0 := by
  have e : ∑ y ∈ Finset.range 8, ∑ x ∈ Finset.range 8, f y x * Real.cos ((2 * x + 1) * u * Real.pi / 16) * Real.cos ((2 * y + 1) * v * Real.pi / 16) =
      m * ((if u = 0 then 8 else 0) * (if v = 0 then 8 else 0)) := by
    rw [← cos_flat hu, ← cos_flat hv, Finset.sum_mul_sum, Finset.sum_comm, Finset.mul_sum]
    refine Finset.sum_congr rfl fun y _ => ?_
    rw [Finset.mul_sum]
    refine Finset.sum_congr rfl fun x _ => ?_
    rw [hf]
    ring
  unfold dct
  rw [e]
  by_cases h1 : u = 0 <;> by_cases h2 : v = 0 <;> simp only [h1, h2, if_true, if_false, and_self, and_true, and_false, false_and, true_and, mul_zero, zero_mul]
  unfold norm0
  rw [if_pos rfl]
  have h : (1 / √2 : ℝ) * (1 / √2) = 1 / 2 := by
    rw [div_mul_div_comm, Real.mul_self_sqrt (by norm_num)]
    norm_num
  calc 1 / 4 * (1 / √2) * (1 / √2) * (m * (8 * 8)) = 1 / 4 * ((1 / √2) * (1 / √2)) * (m * (8 * 8)) := by ring
    _ = 8 * m := by rw [h]; ring

/-- The inverse of one coefficient. -/
theorem idct_flat {F : ℕ → ℕ → ℝ} (hF : ∀ v < 8, ∀ u < 8, ¬ (v = 0 ∧ u = 0) → F v u = 0) (y x : ℕ) : idct F y x = F 0 0 / 8 := by
  unfold idct
  rw [Finset.sum_eq_single_of_mem 0 (Finset.mem_range.2 (by norm_num)), Finset.sum_eq_single_of_mem 0 (Finset.mem_range.2 (by norm_num))]
  · unfold norm0
    rw [if_pos rfl]
    have h : (1 / √2 : ℝ) * (1 / √2) = 1 / 2 := by
      rw [div_mul_div_comm, Real.mul_self_sqrt (by norm_num)]
      norm_num
    rw [h]
    simp
    ring
  · intro u hu hu0
    rw [hF 0 (by norm_num) u (Finset.mem_range.1 hu) (fun h => hu0 h.2)]
    ring
  · intro v hv hv0
    refine Finset.sum_eq_zero fun u hu => ?_
    rw [hF v (Finset.mem_range.1 hv) u (Finset.mem_range.1 hu) (fun h => hv0 h.1)]
    ring

theorem small_zero {s : ℕ} (hs : 2 ≤ s) {c : Int} (h : |(s : ℝ) * (c : ℝ)| ≤ (s : ℝ) / 2 + 1 / 16) : c = 0 := by
  by_contra hc
  have h1 : (1 : ℝ) ≤ |(c : ℝ)| := by
    rw [← Int.cast_abs]
    exact_mod_cast Int.one_le_abs hc
  have h2 : (2 : ℝ) ≤ s := by exact_mod_cast hs
  rw [abs_mul, Nat.abs_cast] at h
  nlinarith

theorem first_step : ∀ c < 3, stepOf c 0 = 3 ∧ zigzag.idxOf (0, 0) = 0 := by decide +kernel

theorem Loads.flat {w h : ℕ} {data l : List UInt8} {d : Contents} {out : Cells UInt8} {P : ℕ → ℕ → ℕ → UInt8} (L : Loads w h data l d out P) {c : ℕ} (hc : c < 3)
    {m : ℚ} (hm : ∀ y x, sample w h data c y x = m) {r x : ℕ} (hr : r < (h + 15) / 16 * side c * 8) (hx : x < (w + 15) / 16 * side c * 8) :
    |((P c r x).toNat : ℝ) - limit (128 + m)| ≤ 987 / 1000 := by
  have hm' : |(m : ℝ)| ≤ 128 := by
    rw [← hm 0 0]
    exact sample_abs _ _ _ _ _ _
  have df : ∀ v < 8, ∀ u < 8, dct (fun y x' => (sample w h data c (8 * (r / 8) + y) (8 * (x / 8) + x') : ℝ)) v u = if v = 0 ∧ u = 0 then 8 * (m : ℝ) else 0 :=
    fun v hv u hu => dct_flat (fun y x => by rw [hm]) hv hu
  have z : ∀ v < 8, ∀ u < 8, ¬ (v = 0 ∧ u = 0) → (d.step c (zigzag.idxOf (v, u)) : ℝ) * (d.coef c (r / 8) (x / 8) (zigzag.idxOf (v, u)) : ℝ) = 0 := by
    intro v hv u hu h0
    have := L.transform hc hr hx hv hu
    rw [df v hv u hu, if_neg h0, sub_zero] at this
    obtain ⟨k1, -⟩ := zigzag_idx v hv u hu
    obtain ⟨s1, s2⟩ := L.steps c hc _ k1
    rw [s1] at this
    rw [small_zero s2 this, Int.cast_zero, mul_zero]
  have t := L.transform hc hr hx (v := 0) (u := 0) (by norm_num) (by norm_num)
  rw [df 0 (by norm_num) 0 (by norm_num), if_pos ⟨rfl, rfl⟩, (first_step c hc).2, (first_step c hc).1] at t
  have hrec : d.recon c r x = (d.step c 0 : ℝ) * (d.coef c (r / 8) (x / 8) 0 : ℝ) / 8 := by
    unfold Contents.recon
    rw [idct_flat z, (first_step c hc).2]
  have sb : sampleBound d c r x = 617 / 1000 + |(d.step c 0 : ℝ) * (d.coef c (r / 8) (x / 8) 0 : ℝ)| / 5900 := by
    unfold sampleBound
    congr 2
    rw [Finset.sum_eq_single_of_mem 0 (Finset.mem_range.2 (by norm_num)), Finset.sum_eq_single_of_mem 0 (Finset.mem_range.2 (by norm_num)), (first_step c hc).2]
    · intro u hu hu0
      rw [z 0 (by norm_num) u (Finset.mem_range.1 hu) (fun h => hu0 h.2), abs_zero]
    · intro v hv hv0
      refine Finset.sum_eq_zero fun u hu => ?_
      rw [z v (Finset.mem_range.1 hv) u (Finset.mem_range.1 hu) (fun h => hv0 h.1), abs_zero]
  have a1 := L.samples c hc r hr x hx
  rw [sb] at a1
  unfold Contents.level at a1
  have a2 := limit_lip (128 + d.recon c r x) (128 + m)
  rw [hrec] at a1 a2
  generalize (d.step c 0 : ℝ) * (d.coef c (r / 8) (x / 8) 0 : ℝ) = F at *
  have a3 : |F| ≤ 1026 := by
    rw [abs_le] at *
    push_cast at t
    constructor <;> linarith [t.1, t.2, hm'.1, hm'.2]
  have a4 : |128 + F / 8 - (128 + (m : ℝ))| ≤ 1954 / 10000 := by
    push_cast at t
    rw [abs_le] at *
    constructor <;> linarith [t.1, t.2]
  have a5 := abs_sub_le ((P c r x).toNat : ℝ) (limit (128 + F / 8)) (limit (128 + (m : ℝ)))
  linarith

theorem limit_byte (b : UInt8) : limit (b.toNat : ℝ) = b.toNat := by
  have := byte_real b
  unfold limit
  rw [min_eq_right this.2, max_eq_right this.1]

/-- A byte that is less than 1 from a byte. -/
theorem byte_near {a b : UInt8} (h : |(a.toNat : ℝ) - b.toNat| ≤ 987 / 1000) : a = b := by
  rw [abs_le] at h
  have h1 : (a.toNat : ℝ) < b.toNat + 1 := by linarith [h.2]
  have h2 : (b.toNat : ℝ) < a.toNat + 1 := by linarith [h.1]
  have h3 : a.toNat < b.toNat + 1 := by exact_mod_cast h1
  have h4 : b.toNat < a.toNat + 1 := by exact_mod_cast h2
  exact UInt8.toNat_inj.1 (by omega)

theorem redB_mid : ∀ y : UInt8, redB y 128 = y ∧ greenB y 128 128 = y ∧ blueB y 128 = y := by
  have : ∀ n < 256, redB (UInt8.ofNat n) 128 = UInt8.ofNat n ∧ greenB (UInt8.ofNat n) 128 128 = UInt8.ofNat n ∧ blueB (UInt8.ofNat n) 128 = UInt8.ofNat n := by decide +kernel
  intro y
  have h := this y.toNat y.toNat_lt
  rwa [UInt8.ofNat_toNat] at h

theorem upByte_mid {N F : ℕ → UInt8} {w x : ℕ} (hN : N (x / 2) = 128 ∧ N (beyond w x) = 128) (hF : F (x / 2) = 128 ∧ F (beyond w x) = 128) : upByte N F w x = 128 := by
  unfold upByte
  rw [hN.1, hN.2, hF.1, hF.2]
  decide

end FlatCV
