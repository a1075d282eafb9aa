/-
Properties C12–C17, C20 (integer part) and the corresponding parts of C09–C11.
-/
import Verif.Lemmas.Stretch

namespace FlatCV.Props
open Model

variable {P : Plat} {w h : Nat} {d : List UInt8}

/-! ### C12: grayscale conversion -/

/-- C12: one byte per pixel, the documented luma; every byte initialised. -/
theorem rgba_to_grayscale_correct (im : Img P w h 4 d) :
    Yields (fcv_rgba_to_grayscale P w h (some d)) (Spec.gray (w * h) d) :=
  fun hp => gray_returns_core P w h d hp im.w_pos im.h_pos im.len
    (by rw [← im.len]; exact im.size)

example : Img .lp64 2 2 4 [1, 2, 3, 4, 5, 6, 7, 8, 9, 10, 11, 12, 250, 251, 252, 253] :=
  ⟨by decide, by decide, by decide, by decide, by decide, by decide⟩

/-- C12: the gray value is `⌊(76 R + 150 G + 30 B) / 256⌋`, without wrap-around. -/
theorem luma_value (r g b : UInt8) :
    (Spec.luma r g b).toNat = (76 * r.toNat + 150 * g.toNat + 30 * b.toNat) / 256 :=
  luma_toNat r g b

/-- C12: gray pixels keep their value (so black and white are preserved). -/
theorem luma_gray (v : UInt8) : Spec.luma v v v = v := luma_self v

/-- C12: brighter channels never give a darker gray. -/
theorem luma_mono {r g b r' g' b' : UInt8} (hr : r ≤ r') (hg : g ≤ g') (hb : b ≤ b') :
    Spec.luma r g b ≤ Spec.luma r' g' b' := by
  rw [UInt8.le_iff_toNat_le] at *
  rw [luma_toNat, luma_toNat]
  omega

/-- C12: the gray value lies between the smallest and the largest channel. -/
theorem luma_between (r g b : UInt8) :
    min r.toNat (min g.toNat b.toNat) ≤ (Spec.luma r g b).toNat ∧
      (Spec.luma r g b).toNat ≤ max r.toNat (max g.toNat b.toNat) := by
  rw [luma_toNat]
  omega

/-! ### C15: expansion to RGBA -/

/-- C15: every gray byte becomes an opaque gray pixel. -/
theorem single_to_multichannel_correct (im : Img P w h 1 d) (hsz : w * h * 4 ≤ P.szMax) :
    Yields (fcv_single_to_multichannel P w h (some d))
      (Spec.grayRGBA (w * h) fun i => px1 1 d i 0) :=
  fun hp => multi_returns_core P w h d hp im.w_pos im.h_pos (by simpa using im.len) hsz

/-- C15: extracting gray from the expansion gives back the bytes. -/
theorem grayscale_of_multichannel (im : Img P w h 1 d) (hsz : w * h * 4 ≤ P.szMax) :
    YieldsThen (fcv_single_to_multichannel P w h (some d))
      (fun e => fcv_rgba_to_grayscale P w h (some e)) d := by
  refine (single_to_multichannel_correct im hsz).andThen ?_
  have im' : Img P w h 4 (Spec.grayRGBA (w * h) fun i => px1 1 d i 0) :=
    ⟨im.w_pos, im.h_pos, im.w_u32, im.h_u32, by simp, by simpa using hsz⟩
  have := rgba_to_grayscale_correct im'
  rw [show Spec.gray (w * h) (Spec.grayRGBA (w * h) fun i => px1 1 d i 0) = d from ?_] at this
  · exact this
  · refine px_ext (n := w * h) (ch := 1) (by simp) im.len fun i c hi hc => ?_
    have : c = 0 := by omega
    subst this
    unfold Spec.gray
    rw [px1_mkPx hi hc]
    unfold Spec.lumaAt Spec.grayRGBA
    rw [px1_mkPx hi (by omega), px1_mkPx hi (by omega), px1_mkPx hi (by omega)]
    exact luma_self _

example : Img .lp64 3 1 1 [0, 128, 255] ∧ 3 * 1 * 4 ≤ Plat.lp64.szMax :=
  ⟨⟨by decide, by decide, by decide, by decide, by decide, by decide⟩, by decide⟩

/-! ### C13, C14: RGBA grayscale -/

/-- C13: up to `2^30` pixels every pixel becomes opaque gray with the documented luma. -/
theorem grayscale_correct (im : Img P w h 4 d) (h32 : w * h ≤ 2 ^ 30) :
    Yields (fcv_grayscale P w h (some d)) (Spec.grayRGBA (w * h) (Spec.lumaAt d)) :=
  fun hp => grayscale_returns_core P w h d hp im.w_pos im.h_pos im.len
    (by rw [← im.len]; exact im.size) (by omega)

/-- C13: converting to grayscale twice is converting once. -/
theorem grayscale_idempotent (im : Img P w h 4 d) (h32 : w * h ≤ 2 ^ 30) :
    ∃ e, Yields (fcv_grayscale P w h (some d)) e ∧ Yields (fcv_grayscale P w h (some e)) e := by
  refine ⟨_, grayscale_correct im h32, ?_⟩
  have im' : Img P w h 4 (Spec.grayRGBA (w * h) (Spec.lumaAt d)) :=
    ⟨im.w_pos, im.h_pos, im.w_u32, im.h_u32, by simp, by
      have := im.size; have := im.len; simp; omega⟩
  have := grayscale_correct im' h32
  rw [show Spec.grayRGBA (w * h) (Spec.lumaAt (Spec.grayRGBA (w * h) (Spec.lumaAt d)))
      = Spec.grayRGBA (w * h) (Spec.lumaAt d) from ?_] at this
  · exact this
  · refine mkPx_congr fun i c hi hc => ?_
    by_cases h3 : c < 3
    · simp only [h3, if_true]
      rw [show Spec.lumaAt (Spec.grayRGBA (w * h) (Spec.lumaAt d)) i
        = Spec.luma (Spec.lumaAt d i) (Spec.lumaAt d i) (Spec.lumaAt d i) from ?_, luma_self]
      unfold Spec.grayRGBA
      conv => lhs; unfold Spec.lumaAt
      rw [px1_mkPx hi (by omega), px1_mkPx hi (by omega), px1_mkPx hi (by omega)]
      rfl
    · simp only [h3, if_false]

/-- C14 as stated: every accepted image has all its output bytes written. -/
def GrayscaleCoversEveryPixel : Prop :=
  ∀ (P : Plat) (w h : Nat) (d : List UInt8), Img P w h 4 d →
    ∀ hp, Returns (fcv_grayscale P w h (some d)) hp fun c => ∀ k, k < w * h * 4 → c[k]? ≠ some none

/-- C14 fails for every image of more than `2^30` pixels: the call succeeds (when memory
suffices) but returns a block with uninitialised bytes, because the loop bound and the byte
index are 32-bit (conversion.c:57-58). -/
theorem grayscale_uninitialised (im : Img P w h 4 d) (h32 : 2 ^ 30 < w * h) (hp : Heap) :
    Returns (fcv_grayscale P w h (some d)) hp
      (fun c => c.length = w * h * 4 ∧ c[2 ^ 32]? = some none) := by
  obtain ⟨r, h', e, hq⟩ := grayscale_returns_large P w h d hp im.w_pos im.h_pos im.len
    (by rw [← im.len]; exact im.size) (by omega)
  refine ⟨r, h', e, ?_⟩
  cases r with
  | none => exact hq
  | some b => exact ⟨hq.1, hq.2.1, hq.2.2 (2 ^ 32) (by omega) (by omega)⟩

/-- C14 is false of the code: a 65536 × 65536 image. -/
theorem not_grayscaleCoversEveryPixel : ¬ GrayscaleCoversEveryPixel := by
  intro hall
  have im : Img .lp64 65536 65536 4 (List.replicate (65536 * 65536 * 4) 0) :=
    ⟨by decide, by decide, by decide, by decide, by rw [List.length_replicate], by
      rw [List.length_replicate]; decide⟩
  obtain ⟨r, h', e, hq⟩ := hall _ _ _ _ im Heap.fresh
  obtain ⟨r', h'', e', hq'⟩ := grayscale_uninitialised im (by decide) Heap.fresh
  rw [e] at e'
  cases e'
  cases r with
  | none =>
    obtain ⟨_, _, _, i, _, _, hi⟩ := hq
    cases hi
  | some b => exact hq.2 (2 ^ 32) (by decide) hq'.2.2

/-- C14, the part that holds: up to `2^30` pixels all bytes are written. -/
theorem grayscale_covers_partial (im : Img P w h 4 d) (h32 : w * h ≤ 2 ^ 30) (hp : Heap) :
    Returns (fcv_grayscale P w h (some d)) hp
      (fun c => c.length = w * h * 4 ∧ ∀ k, k < w * h * 4 → c[k]? ≠ some none) := by
  obtain ⟨r, h', e, hq⟩ := grayscale_correct im h32 hp
  refine ⟨r, h', e, ?_⟩
  cases r with
  | none => exact hq
  | some b =>
    refine ⟨hq.1, ?_⟩
    rw [hq.2]
    refine ⟨by simp, fun k hk => ?_⟩
    rw [List.getElem?_map]
    have : k < (Spec.grayRGBA (w * h) (Spec.lumaAt d)).length := by simpa using hk
    simp

/-! ### C16: contrast stretch -/

/-- C16: the output is the stretch of the luma between the two 1/64 quantiles of the image. -/
theorem grayscale_stretch_correct (im : Img P w h 4 d) (h32 : w * h ≤ 2 ^ 30) :
    ∃ low high, Spec.IsLow (w * h) (Spec.lumaAt d) low ∧ Spec.IsHigh (w * h) (Spec.lumaAt d) high ∧
      low ≤ high ∧
      Yields (fcv_grayscale_stretch P w h (some d))
        (Spec.grayRGBA (w * h) fun i => Spec.stretch low high (Spec.lumaAt d i)) := by
  have hsz : w * h * 4 ≤ P.szMax := by rw [← im.len]; exact im.size
  obtain ⟨low, high, hl, hh, _⟩ := stretch_returns_core P w h d Heap.fresh im.w_pos im.h_pos im.len
    hsz (by omega)
  refine ⟨low, high, hl, hh, low_le_high hl hh (Nat.mul_pos im.w_pos im.h_pos), fun hp => ?_⟩
  obtain ⟨low', high', hl', hh', hr⟩ := stretch_returns_core P w h d hp im.w_pos im.h_pos im.len
    hsz (by omega)
  have e1 : low = low' := by
    rcases Nat.lt_trichotomy low low' with h1 | h1 | h1
    · have := hl'.2.2 low h1; have := hl.2.1; omega
    · exact h1
    · have := hl.2.2 low' h1; have := hl'.2.1; omega
  have e2 : high = high' := by
    rcases Nat.lt_trichotomy high high' with h1 | h1 | h1
    · have := hh.2.2 high' h1; have := hh'.2.1; omega
    · exact h1
    · have := hh'.2.2 high h1; have := hh.2.1; omega
  subst e1 e2
  exact hr

/-- C16: the stretch is monotone (for levels `low ≤ high < 256`). -/
theorem stretch_mono {low high : Nat} (hl : low ≤ high) {a b : UInt8}
    (hab : a ≤ b) : Spec.stretch low high a ≤ Spec.stretch low high b := by
  rw [UInt8.le_iff_toNat_le] at *
  unfold Spec.stretch
  by_cases e : low = high
  · simp [e, hab]
  · simp only [e, if_false]
    have key : ∀ v : Nat, low ≤ v → v ≤ high → (v - low) * 255 / (high - low) ≤ 255 := by
      intro v h1 h2
      apply Nat.div_le_of_le_mul
      exact Nat.mul_le_mul_right _ (by omega)
    by_cases a1 : a.toNat < low
    · simp [a1]
    · by_cases b2 : high < b.toNat
      · have b1 : ¬ b.toNat < low := by omega
        have := (if a.toNat < low then 0 else if high < a.toNat then 255 else
          UInt8.ofNat ((a.toNat - low) * 255 / (high - low)) : UInt8).toNat_lt
        simp only [b1, b2, if_false, if_true]
        have e255 : (255 : UInt8).toNat = 255 := rfl
        rw [e255]
        omega
      · have b1 : ¬ b.toNat < low := by omega
        have a2 : ¬ high < a.toNat := by omega
        simp only [a1, a2, b1, b2, if_false]
        have ka := key a.toNat (by omega) (by omega)
        have kb := key b.toNat (by omega) (by omega)
        rw [UInt8.toNat_ofNat', UInt8.toNat_ofNat', Nat.mod_eq_of_lt (by omega),
          Nat.mod_eq_of_lt (by omega)]
        exact Nat.div_le_div_right (Nat.mul_le_mul_right _ (by omega))

/-- C16: when the quantiles differ, everything at or below `low` becomes 0 and everything at
or above `high` becomes 255. -/
theorem stretch_ends {low high : Nat} (hl : low < high) (v : UInt8) :
    (v.toNat ≤ low → Spec.stretch low high v = 0) ∧
      (high ≤ v.toNat → Spec.stretch low high v = 255) := by
  unfold Spec.stretch
  have e : ¬ low = high := by omega
  simp only [e, if_false]
  constructor
  · intro h1
    by_cases h2 : v.toNat < low
    · simp [h2]
    · have e1 : v.toNat = low := by omega
      have : ¬ high < v.toNat := by omega
      simp only [h2, this, if_false]
      rw [e1]
      simp
  · intro h1
    have h2 : ¬ v.toNat < low := by omega
    by_cases h3 : high < v.toNat
    · simp [h2, h3]
    · simp only [h2, h3, if_false]
      have e1 : v.toNat = high := by omega
      rw [e1, Nat.mul_comm, Nat.mul_div_cancel _ (by omega)]
      rfl

/-- C16: an image with a single gray level is not changed by the stretch. -/
theorem stretch_flat (v : UInt8) (l : Nat) : Spec.stretch l l v = v := by simp [Spec.stretch]

/-- C16: at most 1/64 of the pixels lie strictly below `low`, and strictly above `high`. -/
theorem stretch_outliers {n low high : Nat} {v : Nat → UInt8} (hl : Spec.IsLow n v low)
    (hh : Spec.IsHigh n v high) :
    Spec.countP n (fun i => (v i).toNat < low) ≤ n / 64 ∧
      Spec.countP n (fun i => high < (v i).toNat) ≤ n / 64 := by
  constructor
  · rcases Nat.eq_zero_or_pos low with h0 | h0
    · subst h0; rw [countP_false (by simp)]; omega
    · have := hl.2.2 (low - 1) (by omega)
      rw [countP_congr (q := fun i => (v i).toNat ≤ low - 1)
        fun i _ => decide_eq_decide.2 (by omega)]
      exact this
  · have := hh.2.2 (high + 1) (by omega)
    rw [countP_congr (q := fun i => high + 1 ≤ (v i).toNat)
      fun i _ => decide_eq_decide.2 (by omega)]
    exact this

/-- A concrete image with distinct quantiles: 2 × 1, black and white. -/
example : Spec.IsLow 2 (Spec.lumaAt [0, 0, 0, 255, 255, 255, 255, 255]) 0 ∧
    Spec.IsHigh 2 (Spec.lumaAt [0, 0, 0, 255, 255, 255, 255, 255]) 255 := by
  refine ⟨⟨by decide, by decide, by intro l hl; omega⟩, ⟨by decide, by decide, ?_⟩⟩
  intro l hl
  rw [countP_false fun i _ => ?_]
  · decide
  · have := (Spec.lumaAt [0, 0, 0, 255, 255, 255, 255, 255] i).toNat_lt
    simp
    omega

/-! ### C17: global threshold -/

/-- C17: the first `n` bytes are thresholded exactly, in place, all others are untouched. -/
theorem global_threshold_correct {n : Nat} {d : List UInt8} {t : UInt8} (hn : n ≤ d.length) :
    Ok (fcv_apply_global_threshold n (d.map some) t) fun c =>
      c.length = d.length ∧ ∀ k, c[k]? = (if k < n then
        d[k]?.map (fun v => if t < v then 255 else 0) else d[k]?).map some := by
  refine Ok.of_eq (threshold_ok hn) ⟨by simp, fun k => ?_⟩
  rw [List.getElem?_map, mapFirst_get]
  rfl

example : 2 ≤ [(1 : UInt8), 2, 3].length := by decide

/-! ### C20: smooth threshold, integer part -/

/-- C20: with `lower < upper` the smooth threshold computes the documented ramp in place. -/
theorem double_threshold_correct {n : Nat} {d : List UInt8} {lo hi : UInt8}
    (hn : n ≤ d.length) (hlt : lo < hi) :
    Ok (apply_double_threshold n (d.map some) lo hi) fun c =>
      c.length = d.length ∧ ∀ k, c[k]? = (if k < n then
        d[k]?.map (Spec.ramp lo.toNat hi.toNat) else d[k]?).map some := by
  refine Ok.of_eq (double_threshold_ok hn fun e => ?_) ⟨by simp, fun k => ?_⟩
  · subst e; exact absurd hlt (by simp)
  · rw [List.getElem?_map, mapFirst_get]

/-- C20: the ramp is 0 below, 255 above, and non-decreasing. -/
theorem ramp_mono {lo hi : Nat} (hlt : lo < hi) {a b : UInt8}
    (hab : a ≤ b) : Spec.ramp lo hi a ≤ Spec.ramp lo hi b := by
  rw [UInt8.le_iff_toNat_le] at *
  unfold Spec.ramp
  have key : ∀ v : Nat, lo ≤ v → v ≤ hi → (v - lo) * 255 / (hi - lo) ≤ 255 := by
    intro v h1 h2
    apply Nat.div_le_of_le_mul
    exact Nat.mul_le_mul_right _ (by omega)
  by_cases a1 : a.toNat < lo
  · simp [a1]
  · by_cases b2 : hi < b.toNat
    · have b1 : ¬ b.toNat < lo := by omega
      have := (if a.toNat < lo then 0 else if hi < a.toNat then 255 else
        UInt8.ofNat ((a.toNat - lo) * 255 / (hi - lo)) : UInt8).toNat_lt
      simp only [b1, b2, if_false, if_true]
      have e255 : (255 : UInt8).toNat = 255 := rfl
      rw [e255]
      omega
    · have b1 : ¬ b.toNat < lo := by omega
      have a2 : ¬ hi < a.toNat := by omega
      simp only [a1, a2, b1, b2, if_false]
      have ka := key a.toNat (by omega) (by omega)
      have kb := key b.toNat (by omega) (by omega)
      rw [UInt8.toNat_ofNat', UInt8.toNat_ofNat', Nat.mod_eq_of_lt (by omega),
        Nat.mod_eq_of_lt (by omega)]
      exact Nat.div_le_div_right (Nat.mul_le_mul_right _ (by omega))

/-- C20: equal thresholds make the function divide by zero on a pixel at the threshold. -/
theorem double_threshold_equal_divides_by_zero (t : UInt8) :
    apply_double_threshold 1 [some t] t t = .error .divByZero := by
  simp [apply_double_threshold, forN, rd, ← UInt8.not_le]

/-! ### C09: rejected arguments -/

theorem gray_rejects {data : Option (List UInt8)} (hp : Heap)
    (hbad : data = none ∨ w = 0 ∨ h = 0) :
    Rejects (fcv_rgba_to_grayscale P w h data) hp ∧
    Rejects (fcv_single_to_multichannel P w h data) hp ∧
    Rejects (fcv_grayscale P w h data) hp ∧ Rejects (fcv_grayscale_stretch P w h data) hp := by
  unfold Rejects
  cases data with
  | none => exact ⟨rfl, rfl, rfl, rfl⟩
  | some d =>
    have h0 : w = 0 ∨ h = 0 := by simpa using hbad
    simp [fcv_rgba_to_grayscale, fcv_single_to_multichannel, fcv_grayscale,
      fcv_grayscale_stretch, h0]

end FlatCV.Props
