/-
One blurred pixel: the loop over the taps and the three quotients.
-/
import Verif.Lemmas.BlurWeight
import Verif.Lemmas.Mem
import Mathlib.Algebra.BigOperators.Intervals
import Mathlib.Algebra.BigOperators.Field
import Mathlib.Algebra.Order.BigOperators.Group.Finset

namespace FlatCV

open Model Finset

/-- Tap `j` of the window of radius `R` around `i` lies among `n` samples. -/
def InWin (R n i j : ℕ) : Prop := R ≤ i + j ∧ i + j < n + R

instance (R n i j : ℕ) : Decidable (InWin R n i j) := by unfold InWin; infer_instance

/-- Exact sums over the first `m` taps. -/
def tapSum (R n i : ℕ) (f : ℕ → ℚ) (m : ℕ) : ℚ := ∑ j ∈ range m, if InWin R n i j then f j else 0

theorem tapSum_succ (R n i : ℕ) (f : ℕ → ℚ) (m : ℕ) :
    tapSum R n i f (m + 1) = tapSum R n i f m + if InWin R n i m then f m else 0 := by
  unfold tapSum; rw [sum_range_succ]

/-- Effect of one tap with weight `K`. -/
def tapAcc (K : ℚ) (r g b : UInt8) (a : BlurAcc) : BlurAcc :=
  { w := Dbl.add Fmt.b32 a.w (.fin K)
    r := Dbl.add Fmt.b32 a.r (Dbl.mul Fmt.b32 (.fin r.toNat) (.fin K))
    g := Dbl.add Fmt.b32 a.g (Dbl.mul Fmt.b32 (.fin g.toNat) (.fin K))
    b := Dbl.add Fmt.b32 a.b (Dbl.mul Fmt.b32 (.fin b.toNat) (.fin K)) }

/-- One accumulated channel. -/
theorem chan_step {j : ℕ} {A W K : ℚ} (h : Appr j A W) (hj : j < 2001) (hK1 : 1 / 262144 ≤ K)
    (hK2 : K ≤ 2 ^ 75) (v : UInt8) :
    ∃ W', Dbl.add Fmt.b32 (.fin W) (Dbl.mul Fmt.b32 (.fin (v.toNat : ℚ)) (.fin K)) = .fin W' ∧
      Appr (j + 1) (A + K * v.toNat) W' := by
  have hv : v.toNat ≤ 255 := by have := v.toNat_lt; omega
  have hv' : (v.toNat : ℚ) ≤ 255 := by exact_mod_cast hv
  have hv0 : (0 : ℚ) ≤ v.toNat := Nat.cast_nonneg _
  have hK0 : 0 < K := lt_of_lt_of_le (by norm_num) hK1
  have ht : (v.toNat : ℚ) * K = 0 ∨ 1 / 262144 ≤ (v.toNat : ℚ) * K := by
    rcases Nat.eq_zero_or_pos v.toNat with h0 | h0
    · left; rw [h0]; simp
    · right
      have : (1 : ℚ) ≤ v.toNat := by exact_mod_cast h0
      nlinarith
  have htb : (v.toNat : ℚ) * K ≤ wBig := by
    have e : wBig = 32768 * 2 ^ 75 := by unfold wBig; norm_num
    rw [e]
    exact mul_le_mul (by linarith) hK2 hK0.le (by norm_num)
  have ht0 : 0 ≤ (v.toNat : ℚ) * K := mul_nonneg hv0 hK0.le
  have e1 : Fmt.b32.lift ((v.toNat : ℚ) * K) = .fin (Fmt.b32.rnd ((v.toNat : ℚ) * K)) := by
    apply lift32 (k := 90) (by norm_num)
    rw [abs_of_nonneg ht0]
    exact htb
  have hrel := rnd32_rel (x := (v.toNat : ℚ) * K) (by
    rcases ht with h | h
    · exact .inl h
    · exact .inr (le_trans (by norm_num) h))
  have e24 : (2 : ℚ) ^ 24 = 16777216 := by norm_num
  rw [e24] at hrel
  obtain ⟨s1, s2⟩ := h.step hj ht htb hrel.1 hrel.2
  refine ⟨Fmt.b32.rnd (W + Fmt.b32.rnd ((v.toNat : ℚ) * K)), ?_, ?_⟩
  · simp only [Dbl.mul, e1, Dbl.add]
    exact lift32 (k := 110) (by norm_num) s2
  · rw [mul_comm K]; exact s1

theorem weight_step {j : ℕ} {A W K : ℚ} (h : Appr j A W) (hj : j < 2001) (hK1 : 1 / 262144 ≤ K)
    (hK2 : K ≤ 2 ^ 75) :
    ∃ W', Dbl.add Fmt.b32 (.fin W) (.fin K) = .fin W' ∧ Appr (j + 1) (A + K) W' := by
  have hK0 : 0 < K := lt_of_lt_of_le (by norm_num) hK1
  have htb : K ≤ wBig := by
    refine hK2.trans ?_
    unfold wBig; norm_num
  obtain ⟨s1, s2⟩ := h.step hj (.inr hK1) htb (t' := K) (by linarith) (by linarith)
  exact ⟨_, lift32 (k := 110) (by norm_num) s2, s1⟩

/-- The loop over all taps. -/
theorem blurTaps_ok {r : ℚ} {R : ℕ} (hR : ⌊r⌋ = (R : ℤ)) (h0 : 0 ≤ r) (h2 : r ≤ 1000) {K : ℕ → ℚ}
    (hK : ∀ j, j ≤ 2 * R → 1 / 262144 ≤ K j ∧ K j ≤ 2 ^ 75) {i n : ℕ}
    (v : ℕ → ℕ → UInt8) {body : Int → Int → BlurAcc → CM BlurAcc}
    (hbody : ∀ j, j ≤ 2 * R → ∀ a, body (-(R : Int) + j) R a =
      if InWin R n i j then .ok (tapAcc (K j) (v (i + j - R) 0) (v (i + j - R) 1) (v (i + j - R) 2) a)
      else .ok a) :
    ∃ W r' g' b', blurTaps r body = .ok ⟨.fin W, .fin r', .fin g', .fin b'⟩ ∧
      Appr (2 * R + 1) (tapSum R n i K (2 * R + 1)) W ∧
      Appr (2 * R + 1) (tapSum R n i (fun j => K j * (v (i + j - R) 0).toNat) (2 * R + 1)) r' ∧
      Appr (2 * R + 1) (tapSum R n i (fun j => K j * (v (i + j - R) 1).toNat) (2 * R + 1)) g' ∧
      Appr (2 * R + 1) (tapSum R n i (fun j => K j * (v (i + j - R) 2).toNat) (2 * R + 1)) b' := by
  have hfl := Int.floor_le r
  have hfl2 : R ≤ 1000 := by
    rw [hR] at hfl
    have : ((R : ℤ) : ℚ) ≤ ((1000 : ℤ) : ℚ) := by push_cast at hfl ⊢; linarith
    have : (R : ℤ) ≤ 1000 := by exact_mod_cast this
    omega
  have e1 : castI32 (-r) = .ok (-(R : ℤ)) := by
    rw [castI32_ok (by rw [abs_neg, abs_of_nonneg h0]; linarith)]
    congr 1
    unfold trunc
    by_cases hz : 0 ≤ -r
    · have : r = 0 := by linarith
      subst this
      simp at hR ⊢
      omega
    · rw [if_neg hz, Int.ceil_neg, hR]
  have e2 : castI32 r = .ok (R : ℤ) := by
    rw [castI32_ok (by rw [abs_of_nonneg h0]; linarith), trunc_nonneg h0, hR]
  unfold blurTaps
  rw [e1, e2]
  simp only [ok_bind]
  rw [hR, show ((R : ℤ) - -(R : ℤ) + 1).toNat = 2 * R + 1 by omega]
  have := forN_ok (n := 2 * R + 1) (s := BlurAcc.zero) (body := fun j a => body (-(R : ℤ) + j) R a)
    (fun m a => ∃ W r' g' b', a = ⟨.fin W, .fin r', .fin g', .fin b'⟩ ∧
      Appr m (tapSum R n i K m) W ∧
      Appr m (tapSum R n i (fun j => K j * (v (i + j - R) 0).toNat) m) r' ∧
      Appr m (tapSum R n i (fun j => K j * (v (i + j - R) 1).toNat) m) g' ∧
      Appr m (tapSum R n i (fun j => K j * (v (i + j - R) 2).toNat) m) b')
    ⟨0, 0, 0, 0, rfl, by simp [tapSum, Appr.zero], by simp [tapSum, Appr.zero],
      by simp [tapSum, Appr.zero], by simp [tapSum, Appr.zero]⟩ ?_
  · obtain ⟨a, ha, W, r', g', b', rfl, H⟩ := this
    exact ⟨W, r', g', b', ha, H⟩
  · rintro j hj _ ⟨W, r', g', b', rfl, H1, H2, H3, H4⟩
    rw [hbody j (by omega)]
    obtain ⟨k1, k2⟩ := hK j (by omega)
    by_cases hin : InWin R n i j
    · rw [if_pos hin]
      obtain ⟨W1, a1, b1⟩ := weight_step H1 (by omega) k1 k2
      obtain ⟨W2, a2, b2⟩ := chan_step H2 (by omega) k1 k2 (v (i + j - R) 0)
      obtain ⟨W3, a3, b3⟩ := chan_step H3 (by omega) k1 k2 (v (i + j - R) 1)
      obtain ⟨W4, a4, b4⟩ := chan_step H4 (by omega) k1 k2 (v (i + j - R) 2)
      refine Ok.of_eq rfl ⟨W1, W2, W3, W4, ?_, ?_, ?_, ?_, ?_⟩
      · simp only [tapAcc, a1, a2, a3, a4]
      all_goals rw [tapSum_succ, if_pos hin]; assumption
    · rw [if_neg hin]
      refine Ok.of_eq rfl ⟨W, r', g', b', rfl, ?_, ?_, ?_, ?_⟩
      all_goals
        rw [tapSum_succ, if_neg hin, add_zero]
        apply Appr.skip
        assumption

theorem tapSum_pos {R n i : ℕ} {K : ℕ → ℚ} (hi : i < n)
    (hK : ∀ j, j ≤ 2 * R → 0 < K j) : 0 < tapSum R n i K (2 * R + 1) := by
  unfold tapSum
  apply sum_pos'
  · intro j hj
    rw [mem_range] at hj
    split_ifs
    · exact (hK j (by omega)).le
    · exact le_refl _
  · refine ⟨R, by rw [mem_range]; omega, ?_⟩
    rw [if_pos (by unfold InWin; omega)]
    exact hK R (by omega)

theorem tapSum_le {R n i : ℕ} {K : ℕ → ℚ} (f : ℕ → UInt8) (hK : ∀ j, j ≤ 2 * R → 0 < K j) :
    tapSum R n i (fun j => K j * (f j).toNat) (2 * R + 1) ≤ 255 * tapSum R n i K (2 * R + 1) := by
  unfold tapSum
  rw [mul_sum]
  apply sum_le_sum
  intro j hj
  rw [mem_range] at hj
  have h1 := hK j (by omega)
  have hv : ((f j).toNat : ℚ) ≤ 255 := by
    have h2 := (f j).toNat_lt
    have : (f j).toNat ≤ 255 := by omega
    exact_mod_cast this
  split_ifs
  · nlinarith
  · simp

/-- The stored byte. -/
theorem quot_byte {n : ℕ} {A B R W : ℚ} (hn : n ≤ 2001) (ha : Appr n A R) (hb : Appr n B W)
    (hB : 0 < B) (hm : A ≤ 255 * B) :
    ∃ q b, Dbl.div Fmt.b32 (.fin R) (.fin W) = .ok q ∧ Dbl.toU8 q = .ok b ∧
      A / B - 9 / 8 + 1 / 1000 < (b.toNat : ℚ) ∧ (b.toNat : ℚ) ≤ A / B + 1 / 8 - 1 / 1000 := by
  obtain ⟨h1, h2, h3, h4, h5⟩ := Appr.quot hn ha hb hB hm
  set q := Fmt.b32.rnd (R / W) with hq
  have hmean : A / B ≤ 255 := (div_le_iff₀ hB).2 hm
  have hq256 : q < 256 := by linarith
  refine ⟨.fin q, u8OfInt ⌊q⌋, ?_, castU8_ok h5 hq256, ?_⟩
  · rw [div_fin h1, lift32 (k := 110) (by norm_num) h2]
  · have hf0 : 0 ≤ ⌊q⌋ := Int.floor_nonneg.2 h5
    have hf1 : ⌊q⌋ < 256 := Int.floor_lt.2 (by exact_mod_cast hq256)
    have e : ((u8OfInt ⌊q⌋).toNat : ℤ) = ⌊q⌋ := by
      unfold u8OfInt
      rw [UInt8.toNat_ofNat']
      omega
    have e' : ((u8OfInt ⌊q⌋).toNat : ℚ) = (⌊q⌋ : ℚ) := by exact_mod_cast congrArg (Int.cast (R := ℚ)) e
    rw [e']
    have f1 := Int.floor_le q
    have f2 := Int.lt_floor_add_one q
    constructor <;> linarith

/-- Slightly perturbed weights move the mean of byte values by at most 1/1100. -/
theorem mean_close {N : ℕ} {p : ℕ → Prop} [DecidablePred p] {k g v : ℕ → ℝ} {c : ℝ} (hc : 0 < c)
    (hg : ∀ j < N, 0 < g j) (h1 : ∀ j < N, g j / c * (1 - 1 / 571428) ≤ k j)
    (h2 : ∀ j < N, k j ≤ g j / c * (1 + 1 / 571428)) (hv0 : ∀ j, 0 ≤ v j) (hv : ∀ j, v j ≤ 255)
    {m : ℕ} (hm : m < N) (hpm : p m) :
    |(∑ j ∈ range N, if p j then k j * v j else 0) / (∑ j ∈ range N, if p j then k j else 0) -
      (∑ j ∈ range N, if p j then g j * v j else 0) / (∑ j ∈ range N, if p j then g j else 0)| ≤ 1 / 1100 := by
  set KV := ∑ j ∈ range N, if p j then k j * v j else 0 with hKV
  set KS := ∑ j ∈ range N, if p j then k j else 0 with hKS
  set GV := ∑ j ∈ range N, if p j then g j * v j else 0 with hGV
  set GS := ∑ j ∈ range N, if p j then g j else 0 with hGS
  have hGS0 : 0 < GS := by
    rw [hGS]
    apply sum_pos'
    · intro j hj
      rw [mem_range] at hj
      split_ifs
      · exact (hg j hj).le
      · exact le_refl _
    · refine ⟨m, by rw [mem_range]; exact hm, ?_⟩
      rw [if_pos hpm]; exact hg m hm
  have hGV0 : 0 ≤ GV := by
    rw [hGV]
    apply sum_nonneg
    intro j hj
    rw [mem_range] at hj
    split_ifs
    · exact mul_nonneg (hg j hj).le (hv0 j)
    · exact le_refl _
  have hGV1 : GV ≤ 255 * GS := by
    rw [hGV, hGS, mul_sum]
    apply sum_le_sum
    intro j hj
    rw [mem_range] at hj
    have := hg j hj
    have := hv j
    split_ifs
    · nlinarith
    · simp
  have b1 : GV / c * (1 - 1 / 571428) ≤ KV := by
    rw [hGV, hKV, sum_div, sum_mul]
    apply sum_le_sum
    intro j hj
    rw [mem_range] at hj
    split_ifs
    · have := mul_le_mul_of_nonneg_right (h1 j hj) (hv0 j)
      refine le_trans (le_of_eq ?_) this
      ring
    · simp
  have b2 : KV ≤ GV / c * (1 + 1 / 571428) := by
    rw [hGV, hKV, sum_div, sum_mul]
    apply sum_le_sum
    intro j hj
    rw [mem_range] at hj
    split_ifs
    · have := mul_le_mul_of_nonneg_right (h2 j hj) (hv0 j)
      refine le_trans this (le_of_eq ?_)
      ring
    · simp
  have b3 : GS / c * (1 - 1 / 571428) ≤ KS := by
    rw [hGS, hKS, sum_div, sum_mul]
    apply sum_le_sum
    intro j hj
    rw [mem_range] at hj
    split_ifs
    · exact h1 j hj
    · simp
  have b4 : KS ≤ GS / c * (1 + 1 / 571428) := by
    rw [hGS, hKS, sum_div, sum_mul]
    apply sum_le_sum
    intro j hj
    rw [mem_range] at hj
    split_ifs
    · exact h2 j hj
    · simp
  have hX : 0 < GS / c := div_pos hGS0 hc
  have hKS0 : 0 < KS := lt_of_lt_of_le (mul_pos hX (by norm_num)) b3
  set M := GV / GS with hM
  have hM0 : 0 ≤ M := div_nonneg hGV0 hGS0.le
  have hM1 : M ≤ 255 := (div_le_iff₀ hGS0).2 hGV1
  have hGVM : GV / c = M * (GS / c) := by rw [hM]; field_simp
  rw [hGVM] at b1 b2
  set X := GS / c
  have hMX : 0 ≤ M * X := mul_nonneg hM0 hX.le
  rw [abs_le]
  constructor
  · have : M * (1 - 1 / 285713) ≤ KV / KS := by
      rw [le_div_iff₀ hKS0]
      have h3 : M * (1 - 1 / 285713) * KS ≤ M * (1 - 1 / 285713) * (X * (1 + 1 / 571428)) :=
        mul_le_mul_of_nonneg_left b4 (mul_nonneg hM0 (by norm_num))
      refine h3.trans (le_trans ?_ b1)
      have : M * X * ((1 - 1 / 285713) * (1 + 1 / 571428)) ≤ M * X * (1 - 1 / 571428) :=
        mul_le_mul_of_nonneg_left (by norm_num) hMX
      linarith
    nlinarith
  · have : KV / KS ≤ M * (1 + 1 / 285712) := by
      rw [div_le_iff₀ hKS0]
      have h3 : M * (1 + 1 / 285712) * (X * (1 - 1 / 571428)) ≤ M * (1 + 1 / 285712) * KS :=
        mul_le_mul_of_nonneg_left b3 (mul_nonneg hM0 (by norm_num))
      refine le_trans b2 (le_trans ?_ h3)
      have : M * X * (1 + 1 / 571428) ≤ M * X * ((1 + 1 / 285712) * (1 - 1 / 571428)) :=
        mul_le_mul_of_nonneg_left (by norm_num) hMX
      linarith
    nlinarith

end FlatCV
