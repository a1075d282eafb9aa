/-
Facts about interpolation and area means.
-/
import Verif.Lemmas.ResizeBilin

namespace FlatCV

open Finset

/-- A value rounding from within `[lo, hi]` lies there. -/
theorem RoundsTo.bounds {m : ℚ} {b : UInt8} (hb : RoundsTo m b) {lo hi : ℕ} (h1 : (lo : ℚ) ≤ m) (h2 : m ≤ hi) :
    lo ≤ b.toNat ∧ b.toNat ≤ hi := by
  unfold RoundsTo at hb
  rw [abs_le] at hb
  constructor
  · by_contra hc
    have : b.toNat + 1 ≤ lo := by omega
    have : ((b.toNat : ℚ)) + 1 ≤ lo := by exact_mod_cast this
    linarith [hb.1]
  · by_contra hc
    have : hi + 1 ≤ b.toNat := by omega
    have : (hi : ℚ) + 1 ≤ b.toNat := by exact_mod_cast this
    linarith [hb.2]

theorem RoundsTo.eq {m : ℚ} {b : UInt8} (hb : RoundsTo m b) {p : UInt8} (h : |m - p.toNat| ≤ 1 / 4) : b = p := by
  unfold RoundsTo at hb
  rw [abs_le] at hb h
  have h1 : (b.toNat : ℚ) < p.toNat + 1 := by linarith [hb.2, h.2]
  have h2 : (p.toNat : ℚ) < b.toNat + 1 := by linarith [hb.1, h.1]
  have h1' : b.toNat < p.toNat + 1 := by exact_mod_cast h1
  have h2' : p.toNat < b.toNat + 1 := by exact_mod_cast h2
  exact UInt8.toNat_inj.1 (by omega)

theorem RoundsTo.near {m m' : ℚ} {b b' : UInt8} (hb : RoundsTo m b) (hb' : RoundsTo m' b') (h : |m - m'| ≤ 1 / 4) :
    b.toNat ≤ b'.toNat + 1 ∧ b'.toNat ≤ b.toNat + 1 := by
  unfold RoundsTo at hb hb'
  rw [abs_le] at hb hb' h
  have h1 : (b.toNat : ℚ) < b'.toNat + 2 := by linarith [hb.2, h.2, hb'.1]
  have h2 : (b'.toNat : ℚ) < b.toNat + 2 := by linarith [hb.1, h.1, hb'.2]
  have h1' : b.toNat < b'.toNat + 2 := by exact_mod_cast h1
  have h2' : b'.toNat < b.toNat + 2 := by exact_mod_cast h2
  omega

/-- Interpolation only looks at the position brought into the image. -/
theorem lerp_clamp (n : ℕ) (v : ℕ → ℚ) (t : ℚ) : lerp n v t = lerp n v (max 0 (min t (n - 1))) := by
  have : max 0 (min (max 0 (min t ((n : ℚ) - 1))) ((n : ℚ) - 1)) = max 0 (min t ((n : ℚ) - 1)) := by
    by_cases h : (0 : ℚ) ≤ n - 1
    · rw [min_eq_left (max_le h (min_le_right _ _)), max_eq_right (le_max_left _ _)]
    · push Not at h
      rw [max_eq_left ((min_le_right t _).trans h.le), max_eq_left (min_le_left _ _)]
  unfold lerp
  simp only [this]

theorem clamp_split {n : ℕ} (hn : 0 < n) (t : ℚ) : ∃ i < n, ∃ f : ℚ, 0 ≤ f ∧ f < 1 ∧
    max 0 (min t ((n : ℚ) - 1)) = i + f ∧ (f = 0 ∨ i + 1 < n) := by
  have hq : (0 : ℚ) ≤ n - 1 := by
    have : (1 : ℚ) ≤ n := by exact_mod_cast hn
    linarith
  set u := max 0 (min t ((n : ℚ) - 1)) with hu
  have u0 : 0 ≤ u := le_max_left _ _
  have u1 : u ≤ n - 1 := max_le hq (min_le_right _ _)
  have f0 : 0 ≤ ⌊u⌋ := Int.floor_nonneg.2 u0
  have hcast : ((⌊u⌋.toNat : ℕ) : ℤ) = ⌊u⌋ := Int.toNat_of_nonneg f0
  have hcq : ((⌊u⌋.toNat : ℕ) : ℚ) = ((⌊u⌋ : ℤ) : ℚ) := by exact_mod_cast congrArg (Int.cast (R := ℚ)) hcast
  have fl := Int.floor_le u
  have fu := Int.lt_floor_add_one u
  have ltn : ⌊u⌋.toNat < n := by
    have : ((⌊u⌋.toNat : ℕ) : ℚ) < n := by rw [hcq]; linarith
    exact_mod_cast this
  refine ⟨⌊u⌋.toNat, ltn, u - ⌊u⌋.toNat, by rw [hcq]; linarith, by rw [hcq]; linarith, by ring, ?_⟩
  by_cases hz : u - ((⌊u⌋.toNat : ℕ) : ℚ) = 0
  · exact .inl hz
  · right
    by_contra hc
    have : ⌊u⌋.toNat + 1 = n := by omega
    have : ((⌊u⌋.toNat : ℕ) : ℚ) + 1 = n := by exact_mod_cast this
    apply hz
    rw [hcq] at this ⊢
    linarith

/-- Interpolated values lie between the samples within distance 1, for positions at most one
pixel outside. -/
theorem lerp_bounds {n : ℕ} (hn : 0 < n) {v : ℕ → ℚ} {t lo hi : ℚ} (h0 : -1 ≤ t) (h1 : t ≤ n)
    (hv : ∀ i < n, |(i : ℚ) - t| ≤ 1 → lo ≤ v i ∧ v i ≤ hi) : lo ≤ lerp n v t ∧ lerp n v t ≤ hi := by
  obtain ⟨i, hi', f, f0, f1, e, hf⟩ := clamp_split hn t
  have hq : (0 : ℚ) ≤ n - 1 := by
    have : (1 : ℚ) ≤ n := by exact_mod_cast hn
    linarith
  rw [lerp_clamp, e, lerp_at hi' f0 f1.le]
  have key : |(i : ℚ) - t| ≤ 1 ∧ (f = 0 ∨ |((i : ℚ) + 1) - t| ≤ 1) := by
    by_cases ht0 : t < 0
    · have : max 0 (min t ((n : ℚ) - 1)) = 0 := max_eq_left ((min_le_left _ _).trans ht0.le)
      rw [this] at e
      have hi0 : (0 : ℚ) ≤ i := Nat.cast_nonneg _
      have : f = 0 := by linarith
      have : (i : ℚ) = 0 := by linarith
      rw [this, zero_sub, abs_neg, abs_of_neg ht0]
      exact ⟨by linarith, .inl ‹_›⟩
    · push Not at ht0
      by_cases ht1 : t ≤ n - 1
      · rw [min_eq_left ht1, max_eq_right ht0] at e
        rw [e]
        refine ⟨?_, .inr ?_⟩
        · rw [abs_le]; constructor <;> linarith
        · rw [abs_le]; constructor <;> linarith
      · push Not at ht1
        rw [min_eq_right ht1.le, max_eq_right hq] at e
        have hf0 : f = 0 := by
          rcases hf with h | h
          · exact h
          · have : ((i + 1 + 1 : ℕ) : ℚ) ≤ n := by exact_mod_cast h
            push_cast at this
            linarith
        refine ⟨?_, .inl hf0⟩
        rw [abs_le]
        constructor <;> linarith
  have b1 := hv i hi' key.1
  rcases hf with h | h
  · rw [h]
    constructor <;> linarith
  · rcases key.2 with hz | hz
    · rw [hz]
      constructor <;> linarith
    · have b2 := hv (i + 1) h (by push_cast; exact hz)
      rw [show min (i + 1) (n - 1) = i + 1 by omega]
      constructor <;> nlinarith

/-- Close to a sample, the interpolated value is close to it. -/
theorem lerp_near {n i : ℕ} (hi : i < n) {v : ℕ → ℚ} {t : ℚ} (hv : ∀ i, 0 ≤ v i ∧ v i ≤ 255) (he : |t - i| ≤ 1) :
    |lerp n v t - v i| ≤ 255 * |t - i| := by
  rw [abs_le] at he
  by_cases ht : (i : ℚ) ≤ t
  · have e : t = i + (t - i) := by ring
    rw [e, lerp_at hi (by linarith) (by linarith)]
    have a1 := hv i
    have a2 := hv (min (i + 1) (n - 1))
    rw [show (i : ℚ) + (t - i) - i = t - i by ring, abs_of_nonneg (show 0 ≤ t - i by linarith), abs_le]
    constructor <;> nlinarith
  · push Not at ht
    rw [abs_of_neg (show t - i < 0 by linarith)]
    rcases Nat.eq_zero_or_pos i with h | h
    · subst h
      rw [lerp_neg hi (by simpa using ht.le), sub_self, abs_zero]
      linarith
    · have hc : ((i - 1 : ℕ) : ℚ) = i - 1 := by rw [Nat.cast_sub h]; simp
      have e : t = ((i - 1 : ℕ) : ℚ) + (t - i + 1) := by rw [hc]; ring
      rw [e, lerp_at (by omega) (by linarith) (by linarith), show min (i - 1 + 1) (n - 1) = i by omega]
      have a1 := hv i
      have a2 := hv (i - 1)
      rw [hc, abs_le]
      constructor <;> nlinarith

theorem lerp_range {n : ℕ} (hn : 0 < n) {v : ℕ → ℚ} (hv : ∀ i, 0 ≤ v i ∧ v i ≤ 255) (t : ℚ) :
    0 ≤ lerp n v t ∧ lerp n v t ≤ 255 := by
  obtain ⟨i, hi', f, f0, f1, e, _⟩ := clamp_split hn t
  rw [lerp_clamp, e, lerp_at hi' f0 f1.le]
  have a1 := hv i
  have a2 := hv (min (i + 1) (n - 1))
  constructor <;> nlinarith

/-- Interpolation varies by at most 255 per pixel. -/
theorem lerp_lip {n : ℕ} (hn : 0 < n) {v : ℕ → ℚ} (hv : ∀ i, 0 ≤ v i ∧ v i ≤ 255) {s t : ℚ} (he : |s - t| ≤ 1) :
    |lerp n v s - lerp n v t| ≤ 255 * |s - t| := by
  wlog hst : s ≤ t generalizing s t
  · have := this (s := t) (t := s) (by rw [abs_sub_comm]; exact he) (by linarith)
    rwa [abs_sub_comm, abs_sub_comm t s] at this
  obtain ⟨i, hi, f, f0, f1, e, _⟩ := clamp_split hn s
  obtain ⟨j, hj, g, g0, g1, e', _⟩ := clamp_split hn t
  have hmono : max 0 (min s ((n : ℚ) - 1)) ≤ max 0 (min t ((n : ℚ) - 1)) :=
    max_le_max (le_refl _) (min_le_min hst (le_refl _))
  have hlip : max 0 (min t ((n : ℚ) - 1)) - max 0 (min s ((n : ℚ) - 1)) ≤ t - s := by
    rcases le_total 0 (min t ((n : ℚ) - 1)) with h1 | h1
    · rw [max_eq_right h1]
      rcases le_total s ((n : ℚ) - 1) with h2 | h2
      · have := le_max_right 0 (min s ((n : ℚ) - 1))
        rw [min_eq_left h2] at this ⊢
        have := min_le_left t ((n : ℚ) - 1)
        linarith
      · have := le_max_right 0 (min s ((n : ℚ) - 1))
        rw [min_eq_right h2] at this ⊢
        have := min_le_right t ((n : ℚ) - 1)
        linarith
    · rw [max_eq_left h1]
      have := le_max_left 0 (min s ((n : ℚ) - 1))
      linarith
  have habs : |s - t| = t - s := by rw [abs_sub_comm, abs_of_nonneg (by linarith)]
  rw [habs] at he ⊢
  rw [lerp_clamp n v s, lerp_clamp n v t]
  rw [e, e'] at hmono hlip
  rw [e, e']
  have bound : |lerp n v (i + f) - lerp n v (j + g)| ≤ 255 * ((j : ℚ) + g - (i + f)) := by
    by_cases hij : i = j
    · subst hij
      rw [lerp_at hi f0 f1.le, lerp_at hi g0 g1.le]
      have a1 := hv i
      have a2 := hv (min (i + 1) (n - 1))
      rw [abs_le]
      constructor <;> nlinarith
    · have hlt : i + 1 ≤ j := by
        by_contra hc
        have : j + 1 ≤ i := by omega
        have : (j : ℚ) + 1 ≤ i := by exact_mod_cast this
        linarith
      have hltq : (i : ℚ) + 1 ≤ j := by exact_mod_cast hlt
      have k1 := lerp_near (n := n) hj hv (t := (i : ℚ) + f) (by rw [abs_le]; constructor <;> linarith)
      have k2 := lerp_near (n := n) hj hv (t := (j : ℚ) + g) (by rw [abs_le]; constructor <;> linarith)
      rw [abs_sub_comm ((i : ℚ) + f), abs_of_nonneg (show 0 ≤ (j : ℚ) - (i + f) by linarith)] at k1
      rw [abs_of_nonneg (show 0 ≤ (j : ℚ) + g - j by linarith)] at k2
      rw [abs_le] at *
      constructor <;> linarith [k1.1, k1.2, k2.1, k2.2]
  exact bound.trans (by linarith)

/-- Reversing the samples reverses the positions. -/
theorem lerp_rev {n : ℕ} (hn : 0 < n) (v : ℕ → ℚ) (t : ℚ) :
    lerp n (fun i => v (n - 1 - i)) t = lerp n v (n - 1 - t) := by
  have hq : (0 : ℚ) ≤ n - 1 := by
    have : (1 : ℚ) ≤ n := by exact_mod_cast hn
    linarith
  have hc : ∀ k, k ≤ n - 1 → ((n - 1 - k : ℕ) : ℚ) = n - 1 - k := by
    intro k hk
    rw [Nat.cast_sub hk, Nat.cast_sub (by omega)]
    simp
  obtain ⟨i, hi, f, f0, f1, e, hf⟩ := clamp_split hn t
  have e' : max 0 (min ((n : ℚ) - 1 - t) ((n : ℚ) - 1)) = n - 1 - (i + f) := by
    rw [← e]
    rcases le_total t 0 with h | h
    · rw [min_eq_right (by linarith), max_eq_right hq, min_eq_left (by linarith), max_eq_left h, sub_zero]
    · rcases le_total t ((n : ℚ) - 1) with h2 | h2
      · rw [min_eq_left (by linarith), max_eq_right (by linarith), min_eq_left h2, max_eq_right h]
      · rw [min_eq_left (by linarith), max_eq_left (by linarith), min_eq_right h2, max_eq_right hq, sub_self]
  rw [lerp_clamp, e, lerp_clamp n v, e', lerp_at hi f0 f1.le]
  rcases hf with h | h
  · subst h
    have : (n : ℚ) - 1 - (i + 0) = ((n - 1 - i : ℕ) : ℚ) + 0 := by rw [hc i (by omega)]; ring
    rw [this, lerp_at (by omega) (le_refl _) (by norm_num)]
    ring
  · have : (n : ℚ) - 1 - (i + f) = ((n - 1 - (i + 1) : ℕ) : ℚ) + (1 - f) := by rw [hc (i + 1) (by omega)]; push_cast; ring
    rw [this, lerp_at (by omega) (by linarith) (by linarith), show min (i + 1) (n - 1) = i + 1 by omega,
      show min (n - 1 - (i + 1) + 1) (n - 1) = n - 1 - i by omega]
    ring

theorem overlap_far {a b : ℚ} {s : ℕ} (h : b ≤ s ∨ (s : ℚ) + 1 ≤ a) : overlap a b s = 0 := by
  unfold overlap
  apply max_eq_left
  rcases h with h | h
  · have := min_le_right ((s : ℚ) + 1) b
    have := le_max_left (s : ℚ) a
    linarith
  · have := min_le_left ((s : ℚ) + 1) b
    have := le_max_right (s : ℚ) a
    linarith

/-- The mean lies between the values it is taken over. -/
theorem areaMean_bounds {w h : ℕ} {a b c e : ℚ} {v : ℕ → ℕ → ℚ} {lo hi : ℚ}
    (hp : 0 < areaSum w h a b c e (fun _ _ => 1))
    (hv : ∀ x < w, ∀ y < h, (x : ℚ) < b → a < x + 1 → (y : ℚ) < e → c < y + 1 → lo ≤ v x y ∧ v x y ≤ hi) :
    lo ≤ areaMean w h a b c e v ∧ areaMean w h a b c e v ≤ hi := by
  have term : ∀ y < h, ∀ x < w, overlap a b x * overlap c e y * lo ≤ overlap a b x * overlap c e y * v x y ∧
      overlap a b x * overlap c e y * v x y ≤ overlap a b x * overlap c e y * hi := by
    intro y hy x hx
    by_cases h1 : b ≤ x ∨ (x : ℚ) + 1 ≤ a
    · rw [overlap_far h1]; simp
    · by_cases h2 : e ≤ y ∨ (y : ℚ) + 1 ≤ c
      · rw [overlap_far h2]; simp
      · push Not at h1 h2
        have := hv x hx y hy h1.1 h1.2 h2.1 h2.2
        have h0 : 0 ≤ overlap a b x * overlap c e y := mul_nonneg (overlap_nonneg _ _ _) (overlap_nonneg _ _ _)
        exact ⟨mul_le_mul_of_nonneg_left this.1 h0, mul_le_mul_of_nonneg_left this.2 h0⟩
  unfold areaMean
  rw [le_div_iff₀ hp, div_le_iff₀ hp]
  unfold areaSum
  simp only [mul_one]
  rw [mul_sum, mul_sum]
  constructor
  · refine sum_le_sum fun y hy => ?_
    rw [mul_sum]
    refine sum_le_sum fun x hx => ?_
    have := (term y (mem_range.1 hy) x (mem_range.1 hx)).1
    linarith
  · refine sum_le_sum fun y hy => ?_
    rw [mul_sum]
    refine sum_le_sum fun x hx => ?_
    have := (term y (mem_range.1 hy) x (mem_range.1 hx)).2
    linarith

end FlatCV
