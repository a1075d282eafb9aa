/-
Properties C68, C93, C94, C95 and the corresponding part of C09: the Foerstner corner response.
-/
import Verif.Lemmas.FoerstnerFault
import Verif.Props.Blur

namespace FlatCV.Props
open Model Spec

variable {P : Plat} {w h : Nat} {d : List UInt8}

/-- C09: no image or an empty image: NULL, nothing allocated. -/
theorem foerstner_rejects (P : Plat) (w h : Nat) (data : Option (List UInt8)) (σ : Dbl)
    (hbad : data = none ∨ w = 0 ∨ h = 0) (hp : Heap) :
    Rejects (fcv_foerstner_corner P w h data σ) hp := by
  unfold Rejects fcv_foerstner_corner
  cases data with
  | none => rfl
  | some d =>
    have : w = 0 ∨ h = 0 := by simpa using hbad
    simp only [this, if_true]
    rfl

/-- The half-width of the smoothing window: half of three sigma, at least 1. -/
def halfWidth (σ : ℚ) : Nat := max 1 ((trunc (Fmt.b64.rnd (3 * σ))).toNat / 2)

theorem halfWidth_two : halfWidth 2 = 3 := by
  have : Fmt.b64.rnd (3 * 2) = 6 := by
    have := rnd64_int (m := 6) (by norm_num)
    norm_num at this ⊢
    exact this
  unfold halfWidth
  rw [this, trunc_nonneg (by norm_num)]
  norm_num [Int.toNat]

theorem halfWidth_one : halfWidth 1 = 1 := by
  have : Fmt.b64.rnd (3 * 1) = 3 := by
    have := rnd64_int (m := 3) (by norm_num)
    norm_num at this ⊢
    exact this
  unfold halfWidth
  rw [this, trunc_nonneg (by norm_num)]
  norm_num [Int.toNat]

/-- The image sizes that the smoothing loops can handle. -/
def Fits (w h k : Nat) : Prop := (k ≤ w ∧ k ≤ h) ∨ (k ≤ h ∧ h ≤ 2 * k) ∨ (k ≤ w ∧ w ≤ 2 * k)

theorem byteF_zero (m : ℚ) : byteF m 0 = 0 := by
  unfold byteF
  split_ifs
  · rw [mul_zero, rnd_zero, zero_div, rnd_zero]
    rfl
  · rfl

theorem meas_border {k : Nat} (d : List UInt8) {x y : Nat} (hi : ¬ Inner w h k x y) :
    measW w h k d x y = 0 ∧ measQ w h k d x y = 0 := by
  unfold measW measQ tensor
  simp only [if_neg hi, rnd_zero]
  exact ⟨wF_zero, qF_zero⟩

theorem measW_ok (w h k : Nat) (d : List UInt8) (x y : Nat) :
    0 ≤ measW w h k d x y ∧ measW w h k d x y ≤ 2 ^ 120 ∧ Fmt.b64.Rep (measW w h k d x y) :=
  ⟨(meas_bounds w h k d x y).1, (meas_bounds w h k d x y).2.1, (meas_bounds w h k d x y).2.2.1⟩

theorem measQ_ok (w h k : Nat) (d : List UInt8) (x y : Nat) :
    0 ≤ measQ w h k d x y ∧ measQ w h k d x y ≤ 2 ^ 120 ∧ Fmt.b64.Rep (measQ w h k d x y) :=
  ⟨(meas_bounds w h k d x y).2.2.2.1, (meas_bounds w h k d x y).2.2.2.2.1, (meas_bounds w h k d x y).2.2.2.2.2⟩

/-- C68, for images below 2^31 pixels that the window fits: the call is safe, returns two bytes per
pixel, and every pixel closer than the half-width to the border has response 0.  Missing: larger
images, and the sizes of `foerstner_small_images_fault`, for which it is false. -/
theorem foerstner_safe_partial (im : Img P w h 1 d) (hn : w * h < 2147483648) (h8 : w * h * 8 ≤ P.szMax)
    {σ : ℚ} (hσ : |σ| ≤ 700000000) (hfit : Fits w h (halfWidth σ)) :
    ∃ out : List UInt8, Yields (fcv_foerstner_corner P w h (some d) (.fin σ)) out ∧ out.length = w * h * 2 ∧
      ∀ x, x < w → ∀ y, y < h → ¬ Inner w h (halfWidth σ) x y → ∀ c, c < 2 → px w 2 out x y c = 0 := by
  obtain ⟨mw, mq, -, -, hy⟩ := foerstner_yields im hn h8 (foerHalf_ok hσ) hfit
  refine ⟨_, hy, mkImg_length _ _ _ _, ?_⟩
  intro x hx y hyy hi c hc
  rw [px_mkImg hx hyy hc]
  obtain ⟨e1, e2⟩ := meas_border d hi
  have e1' : measW w h (max 1 ((trunc (Fmt.b64.rnd (3 * σ))).toNat / 2)) d x y = 0 := e1
  have e2' : measQ w h (max 1 ((trunc (Fmt.b64.rnd (3 * σ))).toNat / 2)) d x y = 0 := e2
  simp only [e1', e2', byteF_zero, ite_self]

/-- The hypotheses hold for a 5×4 image with sigma 1. -/
example : ∃ out : List UInt8,
    Yields (fcv_foerstner_corner Plat.lp64 5 4 (some (List.replicate 20 7)) (.fin 1)) out ∧ out.length = 40 := by
  obtain ⟨out, h1, h2, -⟩ := foerstner_safe_partial (P := Plat.lp64) (w := 5) (h := 4) (d := List.replicate 20 7)
    ⟨by decide, by decide, by decide, by decide, by decide, by decide⟩ (by decide) (by decide) (σ := 1) (by norm_num)
    (Or.inl (by rw [halfWidth_one]; decide))
  exact ⟨out, h1, h2⟩

/-- C68 is false for images smaller than the window: whenever `Fits` fails, the unsigned loop bounds
wrap around and the call ends in undefined behaviour. -/
theorem foerstner_small_images_fault (im : Img P w h 1 d) (hn : w * h < 2147483648) (h8 : w * h * 8 ≤ P.szMax)
    {σ : ℚ} (hσ : |σ| ≤ 700000000) (hb : (2 * halfWidth σ + h) * (w + 1) < 2147483648)
    (hfit : ¬ Fits w h (halfWidth σ)) {hp : Heap} (hf : ∀ i, hp.fails i = false) :
    ∃ e, fcv_foerstner_corner P w h (some d) (.fin σ) hp = .error e := by
  refine foerstner_err im hn h8 (foerHalf_ok hσ) hb ?_ hf
  unfold Fits halfWidth at hfit
  omega

/-- C68 is false: a single pixel and sigma 2. -/
theorem foerstner_not_safe :
    ¬ ∀ (w h : Nat) (d : List UInt8) (σ : ℚ), Img Plat.lp64 w h 1 d → 0 < σ → σ ≤ 10 →
      ∃ out, Yields (fcv_foerstner_corner Plat.lp64 w h (some d) (.fin σ)) out := by
  intro H
  have im : Img Plat.lp64 1 1 1 [0] := ⟨by decide, by decide, by decide, by decide, by decide, by decide⟩
  obtain ⟨out, hy⟩ := H 1 1 [0] 2 im (by norm_num) (by norm_num)
  obtain ⟨e, he⟩ := foerstner_small_images_fault im (by decide) (by decide) (σ := 2) (by norm_num)
    (by rw [halfWidth_two]; decide) (by rw [halfWidth_two]; unfold Fits; decide) (hp := Heap.fresh) (fun _ => rfl)
  obtain ⟨r, h', e', -⟩ := hy Heap.fresh
  rw [he] at e'
  cases e'

/-- Scaled maps from the computed measures. -/
theorem scaled_of_max {F G : Nat → Nat → ℚ} {ε M : ℚ} {out : List UInt8} {c : Nat}
    (hF : ∀ x y, 0 ≤ F x y ∧ F x y ≤ 2 ^ 120 ∧ Fmt.b64.Rep (F x y)) (hG : ∀ x y, |F x y - G x y| ≤ ε)
    (hM : IsMax (w * h) (fun i => F (i % w) (i / w)) M)
    (ho : ∀ x, x < w → ∀ y, y < h → px w 2 out x y c = byteF M (F x y)) : ScaledMap w h G ε out c := by
  refine ⟨F, M, ?_, ?_, ?_, ?_⟩
  · intro x hx y hy
    exact ⟨hG x y, (hF x y).1, (byte_of_max hF hM hx hy).1⟩
  · refine hM.2.2.imp_right ?_
    rintro ⟨i, hi, e⟩
    obtain ⟨a, b, -⟩ := split_idx hi
    exact ⟨i % w, a, i / w, b, e⟩
  · intro h0 x hx y hy
    rw [ho x hx y hy, h0]
    unfold byteF
    rw [if_neg (lt_irrefl _)]
  · intro h0 x hx y hy
    rw [ho x hx y hy]
    exact (byte_of_max hF hM hx hy).2.2 h0

/-- C93: the two output channels are Foerstner's `w` and `q`, computed with an error of at most
2^-30 and 2^-40, each scaled so that its largest value becomes 255 (within one unit, rounded down).
Missing: windows of half-width 5000 and more, and the sizes excluded in C68. -/
theorem foerstner_measures_partial (im : Img P w h 1 d) (hn : w * h < 2147483648) (h8 : w * h * 8 ≤ P.szMax)
    {σ : ℚ} (hσ : |σ| ≤ 700000000) (hfit : Fits w h (halfWidth σ)) (hk : halfWidth σ ≤ 4999) :
    ∃ out : List UInt8, Yields (fcv_foerstner_corner P w h (some d) (.fin σ)) out ∧ out.length = w * h * 2 ∧
      ScaledMap w h (cornerW w h (halfWidth σ) d) (1 / 2 ^ 30) out 0 ∧
      ScaledMap w h (cornerQ w h (halfWidth σ) d) (1 / 2 ^ 40) out 1 := by
  obtain ⟨mw, mq, h1, h2, hy⟩ := foerstner_yields im hn h8 (foerHalf_ok hσ) hfit
  refine ⟨_, hy, mkImg_length _ _ _ _, ?_, ?_⟩
  · refine scaled_of_max (measW_ok w h (halfWidth σ) d) (fun x y => (meas_near hk d x y).1) h1 ?_
    intro x hx y hyy
    rw [px_mkImg hx hyy (by decide)]
    rfl
  · refine scaled_of_max (measQ_ok w h (halfWidth σ) d) (fun x y => (meas_near hk d x y).2) h2 ?_
    intro x hx y hyy
    rw [px_mkImg hx hyy (by decide)]
    rfl

/-- C95, weakened to what the code guarantees: if any response is computed as non-zero, the strongest
pixel of the channel gets at least 254.  Missing: it should be 255, see `strongest_not_255`. -/
theorem strongest_at_least_254_partial {F : Nat → Nat → ℚ} {ε : ℚ} {out : List UInt8} {c : Nat}
    (hs : ScaledMap w h F ε out c) (hx : ∃ x, x < w ∧ ∃ y, y < h ∧ px w 2 out x y c ≠ 0) :
    ∃ x, x < w ∧ ∃ y, y < h ∧ 254 ≤ (px w 2 out x y c).toNat := by
  obtain ⟨V, M, h1, h2, h3, h4⟩ := hs
  obtain ⟨x, hx, y, hy, hne⟩ := hx
  have hM : 0 < M := by
    have hb := h1 x hx y hy
    rcases (hb.2.1.trans hb.2.2).eq_or_lt with e | e
    · exact absurd (h3 e.symm x hx y hy) hne
    · exact e
  rcases h2 with e | ⟨a, ha, b, hb, e⟩
  · exact absurd e hM.ne'
  · refine ⟨a, ha, b, hb, ?_⟩
    have := (h4 hM a ha b hb).1
    rw [e, div_self hM.ne'] at this
    by_contra hlt
    have h253 : (px w 2 out a b c).toNat ≤ 253 := by omega
    have hq : ((px w 2 out a b c).toNat : ℚ) ≤ 253 := by exact_mod_cast h253
    have : (254 : ℚ) - 1 / 2 ^ 40 < 253 := by linarith
    norm_num at this

/-- What the call returns when no allocation fails. -/
def foerRun (w h : Nat) (d : List UInt8) (σ : ℚ) : Option (Option (Cells UInt8)) :=
  okVal ((fcv_foerstner_corner Plat.lp64 w h (some d) (.fin σ) Heap.fresh).map fun r => r.1.map (·.cells))

theorem foerRun_yields {w h : Nat} {d out : List UInt8} {σ : ℚ} {c : Cells UInt8}
    (hy : Yields (fcv_foerstner_corner Plat.lp64 w h (some d) (.fin σ)) out) (hr : foerRun w h d σ = some (some c)) :
    c = out.map some := by
  obtain ⟨r, h', e, hq⟩ := hy Heap.fresh
  unfold foerRun at hr
  rw [e] at hr
  cases r with
  | none => cases hr
  | some b =>
    have : b.cells = c := by simpa [okVal, Except.map] using hr
    rw [← this]
    exact hq.2

set_option maxRecDepth 100000 in
theorem run_noise : foerRun 4 3 [2, 9, 1, 4, 1, 7, 7, 7, 6, 3, 1, 7] 1 =
    some (some ([0, 0, 0, 0, 0, 0, 0, 0, 0, 0, 254, 255, 254, 255, 0, 0, 0, 0, 0, 0, 0, 0, 0, 0].map some)) := by
  decide +kernel

set_option maxRecDepth 100000 in
theorem run_ramp : foerRun 3 3 [100, 93, 86, 95, 88, 81, 90, 83, 76] 1 =
    some (some ([0, 0, 0, 0, 0, 0, 0, 0, 255, 255, 0, 0, 0, 0, 0, 0, 0, 0].map some)) := by
  decide +kernel

/-- C95 is false: in this 4×3 image the strongest pixel of the first channel gets 254. -/
theorem strongest_not_255 :
    ¬ ∀ (w h : Nat) (d out : List UInt8), Img Plat.lp64 w h 1 d →
      Yields (fcv_foerstner_corner Plat.lp64 w h (some d) (.fin 1)) out →
      ∀ c, c < 2 → (∃ x, x < w ∧ ∃ y, y < h ∧ px w 2 out x y c ≠ 0) →
        ∃ x, x < w ∧ ∃ y, y < h ∧ px w 2 out x y c = 255 := by
  intro H
  have im : Img Plat.lp64 4 3 1 [2, 9, 1, 4, 1, 7, 7, 7, 6, 3, 1, 7] :=
    ⟨by decide, by decide, by decide, by decide, by decide, by decide⟩
  obtain ⟨out, hy, -⟩ := foerstner_safe_partial im (by decide) (by decide) (σ := 1) (by norm_num)
    (Or.inl (by rw [halfWidth_one]; decide))
  have e := map_some_inj (foerRun_yields hy run_noise)
  subst e
  have := H 4 3 _ _ im hy 0 (by decide) (by decide +kernel)
  revert this
  decide +kernel

/-! ### C94: straight edges -/

/-- The brightness is a linear function of the position. -/
def Ramp (w h : Nat) (d : List UInt8) : Prop :=
  ∃ a b c : ℤ, ∀ x, x < w → ∀ y, y < h → ((px w 1 d x y 0).toNat : ℤ) = a * x + b * y + c

/-- C94 is false: rounding noise in a linear ramp is blown up to a full-strength corner. -/
theorem ramp_is_not_flat :
    ¬ ∀ (w h : Nat) (d out : List UInt8), Img Plat.lp64 w h 1 d → Ramp w h d →
      Yields (fcv_foerstner_corner Plat.lp64 w h (some d) (.fin 1)) out →
      ∀ x, x < w → ∀ y, y < h → ∀ c, c < 2 → px w 2 out x y c = 0 := by
  intro H
  have im : Img Plat.lp64 3 3 1 [100, 93, 86, 95, 88, 81, 90, 83, 76] :=
    ⟨by decide, by decide, by decide, by decide, by decide, by decide⟩
  obtain ⟨out, hy, -⟩ := foerstner_safe_partial im (by decide) (by decide) (σ := 1) (by norm_num)
    (Or.inl (by rw [halfWidth_one]; decide))
  have e := map_some_inj (foerRun_yields hy run_ramp)
  subst e
  have hr : Ramp 3 3 [100, 93, 86, 95, 88, 81, 90, 83, 76] := by
    refine ⟨-7, -5, 100, ?_⟩
    decide +kernel
  have := H 3 3 _ _ im hr hy 1 (by decide) 1 (by decide) 0 (by decide)
  revert this
  decide +kernel

theorem wF_of_zero (a : ℚ) : wF a 0 0 = 0 ∧ qF a 0 0 = 0 ∧ wF 0 0 a = 0 ∧ qF 0 0 a = 0 := by
  have e1 : detF a 0 0 = 0 := by unfold detF; simp [rnd_zero]
  have e2 : detF 0 0 a = 0 := by unfold detF; simp [rnd_zero]
  unfold wF qF
  simp [e1, e2, rnd_zero]

/-- The brightness varies along one axis only. -/
def Stripes (w h : Nat) (d : List UInt8) : Prop :=
  (∀ x, x < w → ∀ y, y < h → px w 1 d x y 0 = px w 1 d x 0 0) ∨
    (∀ x, x < w → ∀ y, y < h → px w 1 d x y 0 = px w 1 d 0 y 0)

theorem stripes_meas {k : Nat} (hs : Stripes w h d) (x y : Nat) :
    measW w h k d x y = 0 ∧ measQ w h k d x y = 0 := by
  have bz : ∀ p q : Nat → Nat → Int, (∀ x y, p x y * q x y = 0) → tensor w h k p q x y = 0 := by
    intro p q hpq
    unfold tensor boxSum
    simp [hpq]
  rcases hs with hs | hs
  · have z : ∀ x y, slopeY w h d x y = 0 := by
      intro x y
      by_cases hi : Inner w h 1 x y
      · have hi' := hi
        obtain ⟨i1, i2, i3, i4⟩ := hi'
        rw [slopeY_inner d hi, hs (x - 1) (by omega) (y + 1) (by omega), hs x (by omega) (y + 1) (by omega),
          hs (x + 1) (by omega) (y + 1) (by omega), hs (x - 1) (by omega) (y - 1) (by omega),
          hs x (by omega) (y - 1) (by omega), hs (x + 1) (by omega) (y - 1) (by omega)]
        ring
      · unfold slopeY
        simp only [if_neg hi]
    unfold measW measQ
    rw [bz (slopeX w h d) (slopeY w h d) (fun x y => by rw [z, mul_zero]),
      bz (slopeY w h d) (slopeY w h d) (fun x y => by rw [z, mul_zero]), rnd_zero]
    exact ⟨(wF_of_zero _).1, (wF_of_zero _).2.1⟩
  · have z : ∀ x y, slopeX w h d x y = 0 := by
      intro x y
      by_cases hi : Inner w h 1 x y
      · have hi' := hi
        obtain ⟨i1, i2, i3, i4⟩ := hi'
        rw [slopeX_inner d hi, hs (x + 1) (by omega) (y + 1) (by omega), hs (x + 1) (by omega) y (by omega),
          hs (x + 1) (by omega) (y - 1) (by omega), hs (x - 1) (by omega) (y - 1) (by omega),
          hs (x - 1) (by omega) y (by omega), hs (x - 1) (by omega) (y + 1) (by omega)]
        ring
      · unfold slopeX
        simp only [if_neg hi]
    unfold measW measQ
    rw [bz (slopeX w h d) (slopeY w h d) (fun x y => by rw [z, zero_mul]),
      bz (slopeX w h d) (slopeX w h d) (fun x y => by rw [z, mul_zero]), rnd_zero]
    exact ⟨(wF_of_zero _).2.2.1, (wF_of_zero _).2.2.2⟩

/-- C94, for pictures that vary along one axis only: the response is 0 everywhere.  Missing: ramps in
other directions, for which it is false. -/
theorem stripes_no_corner_partial (im : Img P w h 1 d) (hn : w * h < 2147483648) (h8 : w * h * 8 ≤ P.szMax)
    {σ : ℚ} (hσ : |σ| ≤ 700000000) (hfit : Fits w h (halfWidth σ)) (hs : Stripes w h d) :
    Yields (fcv_foerstner_corner P w h (some d) (.fin σ)) (List.replicate (w * h * 2) 0) := by
  obtain ⟨mw, mq, -, -, hy⟩ := foerstner_yields im hn h8 (foerHalf_ok hσ) hfit
  convert hy using 1
  refine img_ext (w := w) (h := h) (ch := 2) (by simp) (mkImg_length _ _ _ _) ?_
  intro x y c hx hyy hc
  rw [px_mkImg hx hyy hc]
  simp only [(stripes_meas hs x y).1, (stripes_meas hs x y).2, byteF_zero, ite_self]
  have := idx3_lt hx hyy hc
  unfold px
  rw [List.getElem?_replicate]
  simp [this]

/-- A 5×3 picture with a vertical edge. -/
example : Stripes 5 3 [0, 0, 255, 255, 255, 0, 0, 255, 255, 255, 0, 0, 255, 255, 255] := by
  left
  decide +kernel

end FlatCV.Props
