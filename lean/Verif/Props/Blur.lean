/-
C21–C23, C83–C85: the Gaussian blur.
-/
import Verif.Lemmas.BlurTiny
import Verif.Spec.Geometry
import Verif.Props.Otsu
import Mathlib.Algebra.BigOperators.Fin

namespace FlatCV.Props
open FlatCV Model Spec Finset

variable {P : Plat} {ex : ℚ → ℚ} {w h : Nat} {d : List UInt8}

/-- There is an `exp` that meets the assumptions. -/
theorem expOk_exists : ∃ ex, ExpOk ex := by
  have hx : ∀ x : ℚ, ∃ q : ℚ, (x = 0 → q = 1) ∧ |(q : ℝ) - Real.exp x| ≤ Real.exp x / 2 ^ 30 := by
    intro x
    by_cases h0 : x = 0
    · refine ⟨1, fun _ => rfl, ?_⟩
      rw [h0]
      norm_num
    · have hp : 0 < Real.exp (x : ℝ) / 2 ^ 30 := div_pos (Real.exp_pos _) (by positivity)
      obtain ⟨q, hq1, hq2⟩ := exists_rat_btwn (lt_add_of_pos_right (Real.exp (x : ℝ)) hp)
      refine ⟨q, fun h => (h0 h).elim, ?_⟩
      rw [abs_le]
      constructor <;> linarith
  choose f hf1 hf2 using hx
  exact ⟨f, hf1 0 rfl, fun x _ _ => hf2 x⟩

/-! ### C21 -/

/-- Radius 0 returns a copy. -/
theorem blur_radius_zero (im : Img P w h 4 d) :
    Yields (fcv_apply_gaussian_blur P ex w h (.fin 0) (some d)) d := by
  intro hp
  have hw := im.w_pos
  have hh := im.h_pos
  have hd := im.len
  have hs4 : w * h * 4 ≤ P.szMax := by rw [← hd]; exact im.size
  have g1 : ¬ w > P.szMax / h := P.guard_of_mul_le hh (by omega)
  have g2 : P.sz (w * h) = w * h := P.sz_eq' (by omega)
  have g3 : ¬ w * h > P.szMax / 4 := by omega
  have g4 : P.sz (w * h * 4) = w * h * 4 := P.sz_eq' hs4
  have z1 : ¬ (w = 0 ∨ h = 0) := by omega
  unfold fcv_apply_gaussian_blur
  simp only [z1, if_false, lt_irrefl, g1, g2, g3, g4, if_true]
  refine allocFill_returns hp ?_
  exact Ok.of_eq (memcpyIn_all d hd.symm) rfl

/-- Radii that are negative, NaN, infinite or above 1000 give NULL, whatever the image. -/
theorem blur_bad_radius (hp : Heap) {data : Option (List UInt8)} {radius : Dbl}
    (hbad : ∀ q, radius = .fin q → q < 0 ∨ 1000 < q) :
    Rejects (fcv_apply_gaussian_blur P ex w h radius data) hp := by
  unfold Rejects
  cases data with
  | none => rfl
  | some d =>
    unfold fcv_apply_gaussian_blur
    by_cases z : w = 0 ∨ h = 0
    · simp only [z, if_true]; rfl
    · simp only [z, if_false]
      cases radius with
      | nan => rfl
      | inf s => rfl
      | fin q =>
        rcases hbad q rfl with hq | hq
        · simp only [hq, if_true]; rfl
        · have h0 : ¬ q < 0 := by linarith
          have h1 : ¬ q = 0 := by intro e; rw [e] at hq; norm_num at hq
          have h2 : q > 1000 := hq
          simp only [h0, if_false, h1, h2, if_true]
          split_ifs <;> rfl

/-- NULL data, empty images and sizes beyond `size_t` are rejected. -/
theorem blur_rejects (hp : Heap) {data : Option (List UInt8)} {radius : Dbl}
    (hbad : data = none ∨ w = 0 ∨ h = 0 ∨ P.szMax < w * h * 4) :
    Rejects (fcv_apply_gaussian_blur P ex w h radius data) hp := by
  unfold Rejects
  cases data with
  | none => rfl
  | some d =>
    unfold fcv_apply_gaussian_blur
    by_cases z : w = 0 ∨ h = 0
    · simp only [z, if_true]; rfl
    · have hb : P.szMax < w * h * 4 := by
        rcases hbad with h | h | h | h
        · cases h
        · exact (z (.inl h)).elim
        · exact (z (.inr h)).elim
        · exact h
      simp only [z, if_false]
      cases radius with
      | nan => rfl
      | inf s => rfl
      | fin q =>
        by_cases hq : q < 0
        · simp only [hq, if_true]; rfl
        · simp only [hq, if_false]
          by_cases g1 : w > P.szMax / h
          · rw [if_pos g1]; rfl
          · rw [if_neg g1]
            have hm : w * h ≤ P.szMax := P.mul_le_of_guard (by omega) g1
            rw [P.sz_eq' hm, if_pos (by omega)]
            rfl

example : Rejects (fcv_apply_gaussian_blur Plat.lp64 (fun _ => 1) 2 2 (.inf false) (some [])) Heap.fresh :=
  blur_bad_radius _ (by intro q hq; cases hq)

/-! ### C22 -/

/-- Every accepted radius whose variance does not vanish: no access leaves its buffer, no
division by zero, no conversion out of range, and every byte is written with alpha 255. -/
theorem blur_writes_all_partial (hex : ExpOk ex) (im : Img P w h 4 d) (hsz : w * h * 4 < 4294967296)
    {r : ℚ} (hrep : Fmt.b64.Rep r) (h1 : 0 < r) (hv : ¬ SigmaVanishes r) (h2 : r ≤ 1000) :
    ∃ out, Yields (fcv_apply_gaussian_blur P ex w h (.fin r) (some d)) out ∧
      out.length = w * h * 4 ∧ ∀ x, x < w → ∀ y, y < h → px w 4 out x y 3 = 255 := by
  obtain ⟨out, hy, mid, hm, ho, hall⟩ := blur_run P hex im hsz hrep h1 hv h2
  exact ⟨out, hy, ho, fun x hx y hy => (hall x hx y hy).2⟩

/-- All radii from `2^-70` on are covered. -/
theorem usual_radius {r : ℚ} (h : 1 / 2 ^ 70 ≤ r) : ¬ SigmaVanishes r := not_vanishes h

/-- Otherwise NaN is converted to a byte as soon as the buffers are allocated. -/
theorem blur_tiny_radius_faults (im : Img P w h 4 d) {r : ℚ} (h1 : 0 < r) (hv : SigmaVanishes r)
    (hp : Heap) (f0 : hp.fails hp.next = false) (f1 : hp.fails (hp.next + 1) = false) :
    fcv_apply_gaussian_blur P ex w h (.fin r) (some d) hp = .error (.comp .castRange) := by
  have ht := tiny_of_vanishes hv
  have ht' : r < 1 / 8 := lt_trans ht (by norm_num)
  have hw := im.w_pos
  have hh := im.h_pos
  have hd := im.len
  have hpos : 0 < w * h := Nat.mul_pos hw hh
  have hs4 : w * h * 4 ≤ P.szMax := by rw [← hd]; exact im.size
  have g1 : ¬ w > P.szMax / h := P.guard_of_mul_le hh (by omega)
  have g2 : P.sz (w * h) = w * h := P.sz_eq' (by omega)
  have g3 : ¬ w * h > P.szMax / 4 := by omega
  have g4 : P.sz (w * h * 4) = w * h * 4 := P.sz_eq' hs4
  have z1 : ¬ (w = 0 ∨ h = 0) := by omega
  have h2 : ¬ (1000 < r) := by linarith
  unfold fcv_apply_gaussian_blur
  simp only [z1, if_false, not_lt.2 h1.le, g1, g2, g3, g4, h1.ne', gt_iff_lt, h2]
  have er := tiny_rows (len := w * h * 4) hw hh im.w_u32 im.h_u32 (by omega) (by omega) h1 ht (d := d)
  simp [hm_bind, malloc, f0, f1, use, tiny_kernel_size h1 ht, tiny_kernel ex h1 hv, er, Except.map]

/-- C22 as stated. -/
def BlurWritesAll : Prop :=
  ∀ (P : Plat) (ex : ℚ → ℚ) (w h : Nat) (d : List UInt8) (r : ℚ), ExpOk ex → Img P w h 4 d →
    w * h * 4 < 4294967296 → Fmt.b64.Rep r → 0 < r → r ≤ 1000 →
    ∃ out, Yields (fcv_apply_gaussian_blur P ex w h (.fin r) (some d)) out

theorem rep_inv_pow {k : ℕ} (hk : k ≤ 1074) : Fmt.b64.Rep (1 / 2 ^ k) := by
  refine ⟨⟨1, -(k : ℤ), ?_, ?_, ?_⟩, ?_⟩
  · have : Fmt.b64.emin = -1074 := rfl
    omega
  · norm_num [Fmt.b64]
  · rw [Int.cast_one, one_mul, zpow_neg, zpow_natCast, one_div]
  · apply lt_max64
    rw [abs_of_pos (by positivity)]
    refine le_trans (b := (1 : ℚ)) ?_ (by norm_num)
    exact div_le_one_of_le₀ (one_le_pow₀ (by norm_num)) (by positivity)

theorem vanishes_80 : SigmaVanishes (1 / 2 ^ 80) := by
  have hs : sigma32 (1 / 2 ^ 80) ≤ 1 / 2 ^ 80 := by
    unfold sigma32
    refine rnd_le _ (rnd_le _ (by norm_num) (rnd64_inv_pow (by norm_num))) (rnd32_inv_pow (by norm_num))
  have h0 : 0 ≤ sigma32 (1 / 2 ^ 80) := sigma32_nonneg (by positivity)
  have h1 : sigma32 (1 / 2 ^ 80) * sigma32 (1 / 2 ^ 80) ≤ 1 / 2 ^ 150 := by
    refine (mul_le_mul hs hs h0 (by positivity)).trans (by norm_num)
  have h2 := rnd_mono Fmt.b32 h1
  rw [rnd32_half_min] at h2
  exact le_antisymm h2 (rnd_nonneg _ (mul_nonneg h0 h0))

/-- Radius `2^-80` is accepted and has undefined behaviour. -/
theorem not_blurWritesAll : ¬ BlurWritesAll := by
  intro H
  obtain ⟨ex, hex⟩ := expOk_exists
  have im : Img Plat.lp64 1 1 4 [10, 20, 30, 255] :=
    ⟨by norm_num, by norm_num, by unfold IsU32; norm_num, by unfold IsU32; norm_num, rfl, by decide⟩
  obtain ⟨out, hy⟩ := H Plat.lp64 ex 1 1 [10, 20, 30, 255] (1 / 2 ^ 80) hex im (by norm_num)
    (rep_inv_pow (by norm_num)) (by positivity) (by norm_num)
  obtain ⟨r, h', e, -⟩ := hy Heap.fresh
  rw [blur_tiny_radius_faults im (by positivity) vanishes_80 Heap.fresh rfl rfl] at e
  cases e

/-! ### C23 -/

/-- A weighted mean lies between bounds of its window. -/
theorem winMean_bounds {G : ℤ → ℝ} (hG : ∀ k, 0 < G k) {R n i : ℕ} (hi : i < n) {v : ℕ → ℝ} {lo hi' : ℝ}
    (hv : ∀ i', i' < n → i' ≤ i + R → i ≤ i' + R → lo ≤ v i' ∧ v i' ≤ hi') :
    lo ≤ winMean G R n v i ∧ winMean G R n v i ≤ hi' := by
  unfold winMean
  have hpos : 0 < ∑ j ∈ range (2 * R + 1), if R ≤ i + j ∧ i + j < n + R then G (j - R) else 0 := by
    apply sum_pos'
    · intro j _
      split_ifs
      · exact (hG _).le
      · exact le_refl _
    · refine ⟨R, by rw [mem_range]; omega, ?_⟩
      rw [if_pos (by omega)]
      exact hG _
  constructor
  · rw [le_div_iff₀ hpos, mul_sum]
    apply sum_le_sum
    intro j hj
    rw [mem_range] at hj
    split_ifs with hin
    · have := (hv (i + j - R) (by omega) (by omega) (by omega)).1
      have := hG (j - R)
      nlinarith
    · simp
  · rw [div_le_iff₀ hpos, mul_sum]
    apply sum_le_sum
    intro j hj
    rw [mem_range] at hj
    split_ifs with hin
    · have := (hv (i + j - R) (by omega) (by omega) (by omega)).2
      have := hG (j - R)
      nlinarith
    · simp

theorem nearBelow_lower {m : ℝ} {b : UInt8} (hb : NearBelow m b) {lo : ℕ} (h : (lo : ℝ) ≤ m) : lo ≤ b.toNat + 1 := by
  have h1 := hb.1
  by_contra hc
  have : (b.toNat : ℝ) + 2 ≤ (lo : ℝ) := by
    have : b.toNat + 2 ≤ lo := by omega
    exact_mod_cast this
  linarith

theorem nearBelow_upper {m : ℝ} {b : UInt8} (hb : NearBelow m b) {hi : ℕ} (h : m ≤ (hi : ℝ)) : b.toNat ≤ hi := by
  have h1 := hb.2
  by_contra hc
  have : (hi : ℝ) + 1 ≤ (b.toNat : ℝ) := by
    have : hi + 1 ≤ b.toNat := by omega
    exact_mod_cast this
  linarith

/-- An averaged image stays within the range of each window, up to the two truncations. -/
theorem averaged_bounds {G : ℤ → ℝ} (hG : ∀ k, 0 < G k) {R : ℕ} {out : List UInt8}
    (ha : Averaged G R w h d out) {x y c lo hi : ℕ} (hx : x < w) (hy : y < h) (hc : c < 3)
    (hwin : ∀ x' y', x' < w → y' < h → x' ≤ x + R → x ≤ x' + R → y' ≤ y + R → y ≤ y' + R →
      lo ≤ (px w 4 d x' y' c).toNat ∧ (px w 4 d x' y' c).toNat ≤ hi) :
    lo ≤ (px w 4 out x y c).toNat + 2 ∧ (px w 4 out x y c).toNat ≤ hi := by
  obtain ⟨mid, -, -, H⟩ := ha
  have hmid : ∀ y', y' < h → y' ≤ y + R → y ≤ y' + R →
      lo ≤ (px w 4 mid x y' c).toNat + 1 ∧ (px w 4 mid x y' c).toNat ≤ hi := by
    intro y' h1 h2 h3
    have hb := ((H x hx y' h1).1 c hc).1
    have hm := winMean_bounds hG (R := R) hx (v := fun x' => ((px w 4 d x' y' c).toNat : ℝ)) (lo := lo) (hi' := hi)
      (fun x' a1 a2 a3 => by
        obtain ⟨b1, b2⟩ := hwin x' y' a1 h1 a2 a3 h2 h3
        exact ⟨by exact_mod_cast b1, by exact_mod_cast b2⟩)
    exact ⟨nearBelow_lower hb hm.1, nearBelow_upper hb hm.2⟩
  have hb := ((H x hx y hy).1 c hc).2
  have hm := winMean_bounds hG (R := R) hy (v := fun y' => ((px w 4 mid x y' c).toNat : ℝ))
    (lo := ((lo - 1 : ℕ) : ℝ)) (hi' := hi)
    (fun y' a1 a2 a3 => by
      obtain ⟨b1, b2⟩ := hmid y' a1 a2 a3
      exact ⟨by exact_mod_cast (show lo - 1 ≤ (px w 4 mid x y' c).toNat by omega), by exact_mod_cast b2⟩)
  have := nearBelow_lower hb hm.1
  exact ⟨by omega, nearBelow_upper hb hm.2⟩

/-- Whatever `radius` is and whatever the heap: if the blur returns an image, then every channel
value lies between the least (minus the two truncations) and the greatest value of its window. -/
theorem blur_no_overshoot (hex : ExpOk ex) (im : Img P w h 4 d) (hsz : w * h * 4 < 4294967296)
    {radius : Dbl} (hrep : ∀ r, radius = .fin r → Fmt.b64.Rep r) {hp hp' : Heap} {b : Buf UInt8}
    (hrun : fcv_apply_gaussian_blur P ex w h radius (some d) hp = .ok (some b, hp')) :
    ∃ (r : ℚ) (out : List UInt8), radius = .fin r ∧ 0 ≤ r ∧ r ≤ 1000 ∧ b.cells = out.map some ∧
      out.length = w * h * 4 ∧
      ∀ x y c lo hi, x < w → y < h → c < 3 →
        (∀ x' y', x' < w → y' < h → |(x' : ℚ) - x| ≤ r → |(y' : ℚ) - y| ≤ r →
          lo ≤ (px w 4 d x' y' c).toNat ∧ (px w 4 d x' y' c).toNat ≤ hi) →
        lo ≤ (px w 4 out x y c).toNat + 2 ∧ (px w 4 out x y c).toNat ≤ hi := by
  by_cases hok : ∃ r, radius = .fin r ∧ 0 ≤ r ∧ r ≤ 1000
  · obtain ⟨r, rfl, h0, h2⟩ := hok
    rcases h0.eq_or_lt with rfl | h1
    · have hc := (blur_radius_zero (ex := ex) im).result hrun
      refine ⟨0, d, rfl, le_refl _, by norm_num, hc, im.len, ?_⟩
      intro x y c lo hi hx hy hc hwin
      obtain ⟨b1, b2⟩ := hwin x y hx hy (by simp) (by simp)
      exact ⟨by omega, b2⟩
    · by_cases hv : SigmaVanishes r
      · exfalso
        by_cases f0 : hp.fails hp.next
        · have hw := im.w_pos
          have hh := im.h_pos
          have hd := im.len
          have hs4 : w * h * 4 ≤ P.szMax := by rw [← hd]; exact im.size
          have g1 : ¬ w > P.szMax / h := P.guard_of_mul_le hh (by omega)
          have g2 : P.sz (w * h) = w * h := P.sz_eq' (by omega)
          have g3 : ¬ w * h > P.szMax / 4 := by omega
          have g4 : P.sz (w * h * 4) = w * h * 4 := P.sz_eq' hs4
          have z1 : ¬ (w = 0 ∨ h = 0) := by omega
          unfold fcv_apply_gaussian_blur at hrun
          simp only [z1, if_false, not_lt.2 h1.le, g1, g2, g3, g4, h1.ne', gt_iff_lt, not_lt.2 h2] at hrun
          simp [hm_bind, malloc, f0, hm_pure] at hrun
        · by_cases f1 : hp.fails (hp.next + 1)
          · have hw := im.w_pos
            have hh := im.h_pos
            have hd := im.len
            have hs4 : w * h * 4 ≤ P.szMax := by rw [← hd]; exact im.size
            have g1 : ¬ w > P.szMax / h := P.guard_of_mul_le hh (by omega)
            have g2 : P.sz (w * h) = w * h := P.sz_eq' (by omega)
            have g3 : ¬ w * h > P.szMax / 4 := by omega
            have g4 : P.sz (w * h * 4) = w * h * 4 := P.sz_eq' hs4
            have z1 : ¬ (w = 0 ∨ h = 0) := by omega
            unfold fcv_apply_gaussian_blur at hrun
            simp only [z1, if_false, not_lt.2 h1.le, g1, g2, g3, g4, h1.ne', gt_iff_lt, not_lt.2 h2] at hrun
            simp [hm_bind, malloc, f0, f1, use, tiny_kernel_size h1 (tiny_of_vanishes hv), free, Except.map,
              hm_pure] at hrun
          · rw [blur_tiny_radius_faults im h1 hv hp (by simpa using f0) (by simpa using f1)] at hrun
            cases hrun
      · obtain ⟨out, hy, ha⟩ := blur_run P hex im hsz (hrep r rfl) h1 hv h2
        refine ⟨r, out, rfl, h0, h2, hy.result hrun, ?_, ?_⟩
        · obtain ⟨mid, -, ho, -⟩ := ha
          exact ho
        · intro x y c lo hi hx hy hc hwin
          refine averaged_bounds (fun k => Real.exp_pos _) ha hx hy hc ?_
          have hfl := Int.floor_le r
          have hf0 : 0 ≤ ⌊r⌋ := Int.floor_nonneg.2 h0
          have key : ∀ a b : ℕ, a ≤ b + ⌊r⌋.toNat → b ≤ a + ⌊r⌋.toNat → |(a : ℚ) - b| ≤ r := by
            intro a b h1 h2
            have e : ((⌊r⌋.toNat : ℕ) : ℚ) = (⌊r⌋ : ℚ) := by
              have : ((⌊r⌋.toNat : ℕ) : ℤ) = ⌊r⌋ := Int.toNat_of_nonneg hf0
              exact_mod_cast congrArg (Int.cast (R := ℚ)) this
            have h1' : (a : ℚ) ≤ b + (⌊r⌋.toNat : ℕ) := by exact_mod_cast h1
            have h2' : (b : ℚ) ≤ a + (⌊r⌋.toNat : ℕ) := by exact_mod_cast h2
            rw [e] at h1' h2'
            rw [abs_le]
            constructor <;> linarith
          intro x' y' a1 a2 a3 a4 a5 a6
          exact hwin x' y' a1 a2 (key _ _ a3 a4) (key _ _ a5 a6)
  · exfalso
    have := blur_bad_radius (P := P) (ex := ex) (w := w) (h := h) hp (data := some d) (radius := radius) (by
      intro q hq
      by_contra hc
      rw [not_or, not_lt, not_lt] at hc
      exact hok ⟨q, hq, hc.1, hc.2⟩)
    unfold Rejects at this
    rw [this] at hrun
    cases hrun

/-! ### C83 -/

/-- For integer radii the blur is the Gaussian mean with standard deviation `radius / 3`. -/
theorem blur_gaussian_partial (hex : ExpOk ex) (im : Img P w h 4 d) (hsz : w * h * 4 < 4294967296)
    {n : ℕ} (h1 : 0 < n) (h2 : n ≤ 1000) :
    ∃ out, Yields (fcv_apply_gaussian_blur P ex w h (.fin n) (some d)) out ∧
      Averaged (gauss n) n w h d out := by
  have hn1 : (1 : ℚ) ≤ (n : ℚ) := by exact_mod_cast h1
  have hn2 : (n : ℚ) ≤ 1000 := by exact_mod_cast h2
  obtain ⟨out, hy, ha⟩ := blur_run P hex im hsz (r := (n : ℚ))
    (by exact_mod_cast rep64_int (z := (n : ℤ)) (by rw [abs_of_nonneg (by omega)]; omega)) (by linarith)
    (not_vanishes (le_trans (by norm_num) hn1)) hn2
  refine ⟨out, hy, ?_⟩
  have e1 : ∀ k, codeOffset (n : ℚ) k = k := by
    intro k
    unfold codeOffset
    rw [if_neg]
    rintro ⟨h, -⟩
    exact h (by simp)
  have e2 : ⌊(n : ℚ)⌋.toNat = n := by simp
  rw [e2] at ha
  simp only [e1] at ha
  exact_mod_cast ha

/-- C83 as stated, for every accepted radius that is not vanishingly small. -/
def BlurGaussian : Prop :=
  ∀ (P : Plat) (ex : ℚ → ℚ) (w h : Nat) (d : List UInt8) (r : ℚ) (out : List UInt8), ExpOk ex →
    Img P w h 4 d → w * h * 4 < 4294967296 → Fmt.b64.Rep r → 0 < r → r ≤ 1000 → ¬ SigmaVanishes r →
    Yields (fcv_apply_gaussian_blur P ex w h (.fin r) (some d)) out →
    Averaged (fun k => gauss r k) ⌊r⌋.toNat w h d out

theorem gauss_one_lt : gauss (3 / 2) 1 < 1 / 2 := by
  unfold gauss
  norm_num
  rw [Real.exp_neg, inv_lt_comm₀ (Real.exp_pos _) (by norm_num)]
  have := Real.add_one_lt_exp (x := 2) (by norm_num)
  norm_num
  linarith

theorem gauss_zero (r : ℝ) : gauss r 0 = 1 := by
  unfold gauss
  simp

theorem gauss_neg (r : ℝ) (k : ℤ) : gauss r (-k) = gauss r k := by
  unfold gauss
  congr 3
  push_cast
  ring

theorem winMean_one {G : ℤ → ℝ} (hG : 0 < G 0) {R : ℕ} (v : ℕ → ℝ) : winMean G R 1 v 0 = v 0 := by
  unfold winMean
  have e : ∀ j, (R ≤ 0 + j ∧ 0 + j < 1 + R) ↔ j = R := by intro j; omega
  simp only [e]
  rw [sum_ite_eq', sum_ite_eq']
  have : R ∈ range (2 * R + 1) := by rw [mem_range]; omega
  rw [if_pos this, if_pos this]
  simp
  field_simp

theorem rep_three_halves : Fmt.b64.Rep (3 / 2) := by
  refine ⟨⟨3, -1, ?_, ?_, ?_⟩, ?_⟩
  · have : Fmt.b64.emin = -1074 := rfl
    omega
  · norm_num [Fmt.b64]
  · norm_num
  · apply lt_max64
    rw [abs_of_pos (by norm_num)]
    norm_num

theorem img_2x1 (d : List UInt8) (hd : d.length = 8) : Img Plat.lp64 2 1 4 d :=
  ⟨by norm_num, by norm_num, by unfold IsU32; norm_num, by unfold IsU32; norm_num, hd, by rw [hd]; decide⟩

/-- Radius 3/2 on two pixels: the left one is a plain mean instead. -/
theorem blur_two (hex : ExpOk ex) {d : List UInt8} (hd : d.length = 8) :
    ∃ out, Yields (fcv_apply_gaussian_blur Plat.lp64 ex 2 1 (.fin (3 / 2)) (some d)) out ∧
      out.length = 8 ∧
      ((px 2 4 out 0 0 0).toNat : ℝ) < (((px 2 4 d 0 0 0).toNat : ℝ) + (px 2 4 d 1 0 0).toNat) / 2 + 1 / 4 ∧
      (((px 2 4 d 1 0 0).toNat : ℝ) + gauss (3 / 2) 1 * (px 2 4 d 0 0 0).toNat) / (1 + gauss (3 / 2) 1) - 9 / 4 <
        ((px 2 4 out 1 0 0).toNat : ℝ) ∧
      Averaged (fun k => gauss (3 / 2) (codeOffset (3 / 2) k)) 1 2 1 d out := by
  have hf : ⌊(3 / 2 : ℚ)⌋ = 1 := by norm_num
  obtain ⟨out, hy, ha⟩ := blur_run Plat.lp64 hex (img_2x1 d hd) (by norm_num) rep_three_halves (by norm_num)
    (not_vanishes (by norm_num)) (by norm_num)
  rw [hf] at ha
  have ha' : Averaged (fun k => gauss (3 / 2) (codeOffset (3 / 2) k)) 1 2 1 d out := by
    have : (((3 / 2 : ℚ)) : ℝ) = 3 / 2 := by norm_num
    rw [this] at ha
    exact ha
  refine ⟨out, hy, ?_, ?_, ?_, ha'⟩
  · obtain ⟨mid, -, ho, -⟩ := ha'
    exact ho
  · obtain ⟨mid, -, -, H⟩ := ha'
    obtain ⟨n1, n2⟩ := (H 0 (by norm_num) 0 (by norm_num)).1 0 (by norm_num)
    rw [winMean_one (Real.exp_pos _)] at n2
    have e : winMean (fun k => gauss (3 / 2) (codeOffset (3 / 2) k)) 1 2
        (fun x' => ((px 2 4 d x' 0 0).toNat : ℝ)) 0 =
        (((px 2 4 d 0 0 0).toNat : ℝ) + (px 2 4 d 1 0 0).toNat) / 2 := by
      have c0 : codeOffset (3 / 2) 0 = 0 := by unfold codeOffset; simp
      have c1 : codeOffset (3 / 2) 1 = 0 := by unfold codeOffset; norm_num
      simp [winMean, sum_range_succ, c0, c1, gauss_zero]
      norm_num
    rw [e] at n1
    have := n1.2
    have := n2.2
    linarith
  · obtain ⟨mid, -, -, H⟩ := ha'
    obtain ⟨n1, n2⟩ := (H 1 (by norm_num) 0 (by norm_num)).1 0 (by norm_num)
    rw [winMean_one (Real.exp_pos _)] at n2
    have e : winMean (fun k => gauss (3 / 2) (codeOffset (3 / 2) k)) 1 2
        (fun x' => ((px 2 4 d x' 0 0).toNat : ℝ)) 1 =
        (((px 2 4 d 1 0 0).toNat : ℝ) + gauss (3 / 2) 1 * (px 2 4 d 0 0 0).toNat) / (1 + gauss (3 / 2) 1) := by
      have c0 : codeOffset (3 / 2) 0 = 0 := by unfold codeOffset; simp
      have c1 : codeOffset (3 / 2) (-1) = -1 := by unfold codeOffset; norm_num
      simp [winMean, sum_range_succ, c0, c1, gauss_zero, gauss_neg]
      rw [add_comm, add_comm (gauss (3 / 2) 1) 1]
    rw [e] at n1
    have := n1.1
    have := n2.1
    linarith

/-- A 2×1 image, left pixel white, right pixel black. -/
def whiteBlack : List UInt8 := [255, 255, 255, 255, 0, 0, 0, 255]

/-- Fractional radii do not give the Gaussian mean. -/
theorem not_blurGaussian : ¬ BlurGaussian := by
  intro H
  obtain ⟨ex, hex⟩ := expOk_exists
  obtain ⟨out, hy, -, hl, -, -⟩ := blur_two hex (d := whiteBlack) rfl
  have hf : ⌊(3 / 2 : ℚ)⌋ = 1 := by norm_num
  obtain ⟨mid, -, -, H'⟩ := H Plat.lp64 ex 2 1 whiteBlack (3 / 2) out hex (img_2x1 _ rfl) (by norm_num)
    rep_three_halves (by norm_num) (by norm_num) (not_vanishes (by norm_num)) hy
  rw [hf] at H'
  obtain ⟨n1, n2⟩ := (H' 0 (by norm_num) 0 (by norm_num)).1 0 (by norm_num)
  rw [winMean_one (Real.exp_pos _)] at n2
  have e32 : (((3 / 2 : ℚ)) : ℝ) = 3 / 2 := by norm_num
  have p0 : (px 2 4 whiteBlack 0 0 0).toNat = 255 := rfl
  have p1 : (px 2 4 whiteBlack 1 0 0).toNat = 0 := rfl
  have e : winMean (fun k => gauss ((3 / 2 : ℚ) : ℝ) k) 1 2
      (fun x' => ((px 2 4 whiteBlack x' 0 0).toNat : ℝ)) 0 = 255 / (1 + gauss (3 / 2) 1) := by
    rw [e32]
    simp [winMean, sum_range_succ, gauss_zero, p0, p1]
  have h1 : (170 : ℝ) ≤ 255 / (1 + gauss (3 / 2) 1) := by
    have hg : 0 < gauss (3 / 2) 1 := Real.exp_pos _
    rw [le_div_iff₀ (by linarith)]
    have := gauss_one_lt
    linarith
  have a1 := n1.1
  simp only [Int.toNat_one] at a1
  rw [e] at a1
  have a2 := n2.1
  rw [p0, p1] at hl
  norm_num at hl
  linarith

/-! ### C84 -/

theorem winMean_reflect (G : ℤ → ℝ) {R n i : ℕ} (hi : i < n) (v : ℕ → ℝ) :
    winMean G R n (fun j => v (n - 1 - j)) i = winMean (fun k => G (-k)) R n v (n - 1 - i) := by
  unfold winMean
  congr 1
  · rw [← sum_range_reflect]
    apply sum_congr rfl
    intro j hj
    rw [mem_range] at hj
    have e : (R ≤ i + (2 * R + 1 - 1 - j) ∧ i + (2 * R + 1 - 1 - j) < n + R) ↔
        (R ≤ n - 1 - i + j ∧ n - 1 - i + j < n + R) := by omega
    simp only [e]
    split_ifs with hc
    · have e1 : ((2 * R + 1 - 1 - j : ℕ) : ℤ) - R = -((j : ℤ) - R) := by omega
      have e2 : n - 1 - (i + (2 * R + 1 - 1 - j) - R) = n - 1 - i + j - R := by omega
      rw [e1, e2]
    · rfl
  · rw [← sum_range_reflect]
    apply sum_congr rfl
    intro j hj
    rw [mem_range] at hj
    have e : (R ≤ i + (2 * R + 1 - 1 - j) ∧ i + (2 * R + 1 - 1 - j) < n + R) ↔
        (R ≤ n - 1 - i + j ∧ n - 1 - i + j < n + R) := by omega
    simp only [e]
    split_ifs with hc
    · have e1 : ((2 * R + 1 - 1 - j : ℕ) : ℤ) - R = -((j : ℤ) - R) := by omega
      rw [e1]
    · rfl

theorem winMean_close {G : ℤ → ℝ} (hG : ∀ k, 0 < G k) {R n i : ℕ} (hi : i < n) {v v' : ℕ → ℝ} {e : ℝ}
    (hv : ∀ j, j < n → |v j - v' j| ≤ e) : |winMean G R n v i - winMean G R n v' i| ≤ e := by
  have hs : winMean G R n v i - winMean G R n v' i = winMean G R n (fun j => v j - v' j) i := by
    unfold winMean
    rw [div_sub_div_same, ← sum_sub_distrib]
    congr 1
    apply sum_congr rfl
    intro j _
    split_ifs
    · ring
    · simp
  rw [hs, abs_le]
  exact winMean_bounds hG hi (fun j h1 _ _ => abs_le.1 (hv j h1))

/-- Two bytes near the same value, or near values at most one apart. -/
theorem nearBelow_close {m m' : ℝ} {b b' : UInt8} {e : ℕ} (h : NearBelow m b) (h' : NearBelow m' b')
    (he : |m - m'| ≤ e) : |(b.toNat : ℝ) - b'.toNat| ≤ (e + 1 : ℕ) := by
  obtain ⟨h1, h2⟩ := h
  obtain ⟨h3, h4⟩ := h'
  rw [abs_le] at he
  have k1 : (b.toNat : ℝ) < b'.toNat + (e + 2 : ℕ) := by push_cast; linarith
  have k2 : (b'.toNat : ℝ) < b.toNat + (e + 2 : ℕ) := by push_cast; linarith
  have k1' : b.toNat < b'.toNat + (e + 2) := by exact_mod_cast k1
  have k2' : b'.toNat < b.toNat + (e + 2) := by exact_mod_cast k2
  have j1 : (b.toNat : ℝ) ≤ b'.toNat + (e + 1 : ℕ) := by exact_mod_cast (show _ ≤ b'.toNat + (e + 1) by omega)
  have j2 : (b'.toNat : ℝ) ≤ b.toNat + (e + 1 : ℕ) := by exact_mod_cast (show _ ≤ b.toNat + (e + 1) by omega)
  rw [abs_le]
  constructor <;> linarith

/-- C84: blurring the mirrored image gives the mirrored blur, up to rounding. -/
def BlurMirrors (n : ℚ) : Prop :=
  ∀ (P : Plat) (ex : ℚ → ℚ) (w h : Nat) (d out out' : List UInt8), ExpOk ex →
    Img P w h 4 d → w * h * 4 < 4294967296 →
    Yields (fcv_apply_gaussian_blur P ex w h (.fin n) (some d)) out →
    Yields (fcv_apply_gaussian_blur P ex w h (.fin n) (some (flipX w h d))) out' →
    ∀ x y c, x < w → y < h → c < 4 →
      |((px w 4 out' x y c).toNat : ℝ) - (px w 4 out (w - 1 - x) y c).toNat| ≤ 2

theorem blur_mirrors_partial {n : ℕ} (h1 : 0 < n) (h2 : n ≤ 1000) : BlurMirrors n := by
  intro P ex w h d out out' hex im hsz hy hy' x y c hx hyh hc
  have im' : Img P w h 4 (flipX w h d) :=
    ⟨im.w_pos, im.h_pos, im.w_u32, im.h_u32, mkImg_length _ _ _ _, by
      unfold flipX; rw [mkImg_length, ← im.len]; exact im.size⟩
  obtain ⟨o1, y1, mid, -, -, A⟩ := blur_gaussian_partial hex im hsz h1 h2
  obtain ⟨o2, y2, mid', -, -, A'⟩ := blur_gaussian_partial hex im' hsz h1 h2
  obtain rfl := Yields.unique y1 hy
  obtain rfl := Yields.unique y2 hy'
  have hx' : w - 1 - x < w := by omega
  by_cases hc3 : c = 3
  · subst hc3
    rw [(A _ hx' y hyh).2, (A' x hx y hyh).2]
    norm_num
  have hc' : c < 3 := by omega
  have hG : ∀ k, 0 < gauss (n : ℝ) k := fun k => Real.exp_pos _
  have hmid : ∀ y', y' < h →
      |((px w 4 mid' x y' c).toNat : ℝ) - (px w 4 mid (w - 1 - x) y' c).toNat| ≤ (1 : ℕ) := by
    intro y' hy1
    have a := ((A _ hx' y' hy1).1 c hc').1
    have a' := ((A' x hx y' hy1).1 c hc').1
    have e : winMean (gauss n) n w (fun x' => ((px w 4 (flipX w h d) x' y' c).toNat : ℝ)) x =
        winMean (gauss n) n w (fun x' => ((px w 4 d x' y' c).toNat : ℝ)) (w - 1 - x) := by
      have e1 := winMean_reflect (gauss n) (R := n) hx (fun x' => ((px w 4 d x' y' c).toNat : ℝ))
      have e2 : (fun k => gauss (n : ℝ) (-k)) = gauss n := funext (gauss_neg _)
      rw [e2] at e1
      rw [← e1]
      unfold winMean
      congr 1
      apply sum_congr rfl
      intro j _
      split_ifs with hin
      · unfold flipX
        dsimp only
        rw [px_mkImg (by omega) hy1 hc]
      · rfl
    rw [e] at a'
    exact nearBelow_close (e := 0) a' a (by simp)
  have b := ((A _ hx' y hyh).1 c hc').2
  have b' := ((A' x hx y hyh).1 c hc').2
  have := nearBelow_close (e := 1) b' b (winMean_close hG hyh (fun j hj => hmid j hj))
  exact_mod_cast this

/-- A radius of 3/2 blurs to one side only. -/
theorem not_blurMirrors : ¬ BlurMirrors (3 / 2) := by
  intro H
  obtain ⟨ex, hex⟩ := expOk_exists
  obtain ⟨out, hy, -, hl, -, -⟩ := blur_two hex (d := whiteBlack) rfl
  obtain ⟨out', hy', -, -, hr, -⟩ := blur_two hex (d := flipX 2 1 whiteBlack) rfl
  have h := H Plat.lp64 ex 2 1 whiteBlack out out' hex (img_2x1 _ rfl) (by norm_num) hy hy' 1 0 0
    (by norm_num) (by norm_num) (by norm_num)
  have p0 : (px 2 4 whiteBlack 0 0 0).toNat = 255 := rfl
  have p1 : (px 2 4 whiteBlack 1 0 0).toNat = 0 := rfl
  have q0 : (px 2 4 (flipX 2 1 whiteBlack) 0 0 0).toNat = 0 := rfl
  have q1 : (px 2 4 (flipX 2 1 whiteBlack) 1 0 0).toNat = 255 := rfl
  rw [p0, p1] at hl
  rw [q0, q1] at hr
  have h1 : (170 : ℝ) ≤ 255 / (1 + gauss (3 / 2) 1) := by
    have hg : 0 < gauss (3 / 2) 1 := Real.exp_pos _
    rw [le_div_iff₀ (by linarith)]
    have := gauss_one_lt
    linarith
  rw [abs_le] at h
  have := h.2
  norm_num at hl hr this
  linarith

/-! ### C85 -/

/-- Blurring a flat colour darkens it by at most 2 and never brightens it. -/
theorem blur_uniform_partial (hex : ExpOk ex) (im : Img P w h 4 d) (hsz : w * h * 4 < 4294967296)
    {r : ℚ} (hrep : Fmt.b64.Rep r) (h1 : 0 < r) (hv : ¬ SigmaVanishes r) (h2 : r ≤ 1000)
    {v : ℕ → UInt8} (hu : ∀ x y c, x < w → y < h → c < 3 → px w 4 d x y c = v c) :
    ∃ out, Yields (fcv_apply_gaussian_blur P ex w h (.fin r) (some d)) out ∧
      ∀ x y c, x < w → y < h → c < 3 →
        (v c).toNat ≤ (px w 4 out x y c).toNat + 2 ∧ (px w 4 out x y c).toNat ≤ (v c).toNat := by
  obtain ⟨out, hy, ha⟩ := blur_run P hex im hsz hrep h1 hv h2
  refine ⟨out, hy, ?_⟩
  intro x y c hx hyh hc
  refine averaged_bounds (fun k => Real.exp_pos _) ha hx hyh hc ?_
  intro x' y' a1 a2 _ _ _ _
  rw [hu x' y' c a1 a2 hc]
  exact ⟨le_refl _, le_refl _⟩

/-- C85 as stated. -/
def BlurKeepsUniform : Prop :=
  ∀ (P : Plat) (ex : ℚ → ℚ) (w h : Nat) (d out : List UInt8) (r : ℚ) (v : ℕ → UInt8), ExpOk ex →
    Img P w h 4 d → w * h * 4 < 4294967296 → Fmt.b64.Rep r → 0 < r → r ≤ 1000 → ¬ SigmaVanishes r →
    (∀ x y c, x < w → y < h → c < 3 → px w 4 d x y c = v c) →
    Yields (fcv_apply_gaussian_blur P ex w h (.fin r) (some d)) out →
    ∀ x y c, x < w → y < h → c < 3 → px w 4 out x y c = v c

/-- Value of a computation as an option. -/
def okVal {ε α : Type} : Except ε α → Option α
  | .ok a => some a
  | .error _ => none

theorem okVal_eq {ε α : Type} {m : Except ε α} {a : α} (h : okVal m = some a) : m = .ok a := by
  cases m with
  | error f => cases h
  | ok b => cases h; rfl

set_option maxRecDepth 20000 in
theorem kernel_half (hex : ex 0 = 1) :
    blurKernel ex (.fin (1 / 2)) 2 [none, none] = blurKernel (fun _ => 1) (.fin (1 / 2)) 2 [none, none] := by
  obtain ⟨t, s, e, ht⟩ : ∃ t s, blurSigma (.fin (1 / 2)) = .ok (t, s) ∧ Dbl.div Fmt.b32 (.fin 0) t = .ok (.fin 0) := by
    have key : (match blurSigma (.fin (1 / 2)) with
      | .ok (t, _) => okVal (Dbl.div Fmt.b32 (.fin 0) t) == some (.fin 0)
      | .error _ => false) = true := by decide +kernel
    rcases e : blurSigma (.fin (1 / 2)) with f | ⟨t, s⟩
    · rw [e] at key
      cases key
    · rw [e] at key
      exact ⟨t, s, rfl, okVal_eq (by simpa using key)⟩
  have x0 : (Dbl.sub Fmt.b64 (.fin ((0 : ℕ) : ℚ)) (.fin (1 / 2))).toI32 = .ok 0 := okVal_eq (by decide +kernel)
  have x1 : (Dbl.sub Fmt.b64 (.fin ((1 : ℕ) : ℚ)) (.fin (1 / 2))).toI32 = .ok 0 := okVal_eq (by decide +kernel)
  have c0 : (Dbl.fin ((0 : ℤ) : ℚ)).conv Fmt.b32 = .fin 0 := by decide +kernel
  have hw : ∀ i, i < 2 → blurWeight ex (.fin (1 / 2)) t s i = blurWeight (fun _ => 1) (.fin (1 / 2)) t s i := by
    intro i hi
    have hx : (Dbl.sub Fmt.b64 (.fin (i : ℚ)) (.fin (1 / 2))).toI32 = .ok 0 := by
      rcases (show i = 0 ∨ i = 1 by omega) with rfl | rfl
      · exact x0
      · exact x1
    unfold blurWeight
    simp only [hx, ok_bind, mul_zero, neg_zero, show i32 0 = .ok 0 from rfl, c0, ht, expD, hex]
  unfold blurKernel
  rw [e]
  simp only [ok_bind]
  rw [forU32_eq (by norm_num), forU32_eq (by norm_num)]
  apply forN_congr
  intro i hi a
  rw [hw i hi]

/-- A single pixel of gray 109. -/
def gray109 : List UInt8 := [109, 109, 109, 255]

theorem blur_half_eq (hex : ex 0 = 1) :
    fcv_apply_gaussian_blur Plat.lp64 ex 1 1 (.fin (1 / 2)) (some gray109) Heap.fresh =
      fcv_apply_gaussian_blur Plat.lp64 (fun _ => 1) 1 1 (.fin (1 / 2)) (some gray109) Heap.fresh := by
  have ks : (Dbl.add Fmt.b64 (Dbl.mul Fmt.b64 (.fin 2) (.fin (1 / 2))) (.fin 1)).toU32 = .ok 2 :=
    okVal_eq (by decide +kernel)
  have z1 : ¬ ((1 : ℕ) = 0 ∨ (1 : ℕ) = 0) := by decide
  have z2 : ¬ ((1 / 2 : ℚ) < 0) := by norm_num
  have z3 : ¬ ((1 : ℕ) > Plat.lp64.szMax / 1) := by decide
  have z4 : ¬ (Plat.lp64.sz (1 * 1) > Plat.lp64.szMax / 4) := by decide
  have z5 : ¬ ((1 / 2 : ℚ) = 0) := by norm_num
  have z6 : ¬ ((1 / 2 : ℚ) > 1000) := by norm_num
  unfold fcv_apply_gaussian_blur
  simp only [z1, z2, z3, z4, z5, z6, if_false, hm_bind, malloc, ks]
  have kh := kernel_half hex
  rw [one_div] at kh
  simp [use, Heap.fresh, List.replicate, kh, Except.map, hm_bind, malloc]

set_option maxRecDepth 20000 in
theorem blur_half_runs :
    (match fcv_apply_gaussian_blur Plat.lp64 (fun _ => 1) 1 1 (.fin (1 / 2)) (some gray109) Heap.fresh with
      | .ok (some b, _) => b.cells == [some 108, some 108, some 108, some 255]
      | _ => false) = true := by
  decide +kernel

/-- Radius 1/2 turns a flat gray of 109 into 108. -/
theorem not_blurKeepsUniform : ¬ BlurKeepsUniform := by
  intro H
  obtain ⟨ex, hex⟩ := expOk_exists
  have im : Img Plat.lp64 1 1 4 gray109 :=
    ⟨by norm_num, by norm_num, by unfold IsU32; norm_num, by unfold IsU32; norm_num, rfl, by decide⟩
  have hrep : Fmt.b64.Rep (1 / 2) := by simpa using rep_inv_pow (k := 1) (by norm_num)
  have hv : ¬ SigmaVanishes (1 / 2) := not_vanishes (by norm_num)
  have hu : ∀ x y c, x < 1 → y < 1 → c < 3 → px 1 4 gray109 x y c = (109 : UInt8) := by
    intro x y c hx hy hc
    obtain rfl : x = 0 := by omega
    obtain rfl : y = 0 := by omega
    rcases (show c = 0 ∨ c = 1 ∨ c = 2 by omega) with rfl | rfl | rfl <;> rfl
  obtain ⟨out, hy, -⟩ := blur_uniform_partial hex im (by norm_num) hrep (by norm_num) hv (by norm_num)
    (v := fun _ => 109) hu
  have h := H Plat.lp64 ex 1 1 gray109 out (1 / 2) (fun _ => 109) hex im (by norm_num) hrep (by norm_num)
    (by norm_num) hv hu hy 0 0 0 (by norm_num) (by norm_num) (by norm_num)
  have hr := blur_half_runs
  obtain ⟨b, hp', e, hc⟩ := hy.succeeds (hp := Heap.fresh) (fun _ => rfl)
  rw [← blur_half_eq hex.zero, e] at hr
  have hb : b.cells = [some 108, some 108, some 108, some 255] := by simpa using hr
  rw [hc] at hb
  have : out = [108, 108, 108, 255] := map_some_inj (hb.trans (by rfl))
  rw [this] at h
  exact absurd h (by decide)

/-- The hypotheses are met: a 2×1 image blurred with radius 2. -/
example : ∃ ex out, ExpOk ex ∧ Yields (fcv_apply_gaussian_blur Plat.lp64 ex 2 1 (.fin 2) (some whiteBlack)) out ∧
    Averaged (gauss 2) 2 2 1 whiteBlack out ∧ (px 2 4 out 1 0 0).toNat ≤ 255 := by
  obtain ⟨ex, hex⟩ := expOk_exists
  obtain ⟨out, hy, ha⟩ := blur_gaussian_partial hex (img_2x1 whiteBlack rfl) (by norm_num) (n := 2)
    (by norm_num) (by norm_num)
  refine ⟨ex, out, hex, by exact_mod_cast hy, by exact_mod_cast ha, ?_⟩
  obtain ⟨b, hp', e, hc⟩ := hy.succeeds (hp := Heap.fresh) (fun _ => rfl)
  obtain ⟨r, out', -, -, -, hc', -, hb⟩ := blur_no_overshoot hex (img_2x1 whiteBlack rfl) (by norm_num)
    (by intro r hr; cases hr; exact_mod_cast rep64_int (z := 2) (by norm_num)) e
  rw [hc] at hc'
  obtain rfl := map_some_inj hc'
  refine (hb 1 0 0 0 255 (by norm_num) (by norm_num) (by norm_num) ?_).2
  intro x' y' _ _ _ _
  have := (px 2 4 whiteBlack x' y' 0).toNat_lt
  exact ⟨Nat.zero_le _, by omega⟩

end FlatCV.Props
