/-
C18–C20, C79, C80: Otsu's threshold.
-/
import Verif.Lemmas.Otsu
import Verif.Props.Gray

namespace FlatCV.Props
open FlatCV Model Spec

variable {P : Plat} {w h : Nat} {d : List UInt8}

/-! ### The call -/

/-- Values of the result for the level `t`; the bounds of the smooth threshold are reduced to
bytes. -/
def otsuValue (dbl : Bool) (t : Nat) (v : UInt8) : UInt8 :=
  if dbl then ramp ((t + 240) % 256) ((t + 16) % 256) v else threshold (UInt8.ofNat t) v

theorem otsuPixels_ok {n : Nat} {v : Nat → UInt8} {t : Nat} (hn : n < 2 ^ 32)
    (ht : otsuLevel (histOf n v) n = .ok t) (dbl : Bool) :
    otsuPixels n dbl (mkPx n 1 fun i _ => v i) = .ok (mkPx n 1 fun i _ => otsuValue dbl t (v i)) := by
  have hv : ∀ i, i < n → ((mkPx n 1 fun i _ => v i).map some)[i]? = some (some (v i)) := by
    intro i hi
    have := mkPx_getElem? (f := fun i _ => v i) (c := 0) hi Nat.one_pos
    rw [Nat.mul_one, Nat.add_zero] at this
    rw [List.getElem?_map, this]
    rfl
  have hlen : (mkPx n 1 fun i _ => v i).length = n := by simp
  unfold otsuPixels
  rw [histogramLoop_ok hv (by omega), ok_bind, ht, ok_bind, u32_eq (by omega)]
  have key : ∀ f : UInt8 → UInt8, mapFirst n f (mkPx n 1 fun i _ => v i) = mkPx n 1 fun i _ => f (v i) := by
    intro f
    unfold mapFirst
    rw [List.take_of_length_le (by omega), List.drop_of_length_le (by omega), List.append_nil]
    unfold mkPx
    rw [List.map_map]
    rfl
  cases dbl with
  | true =>
    have e1 : (u8OfInt ((t : Int) - 16)).toNat = (t + 240) % 256 := by
      unfold u8OfInt
      rw [UInt8.toNat_ofNat']
      omega
    have e2 : (u8OfInt ((t : Int) + 16)).toNat = (t + 16) % 256 := by
      unfold u8OfInt
      rw [UInt8.toNat_ofNat']
      omega
    rw [if_pos rfl, double_threshold_ok hlen.ge (by
      intro hc
      rw [hc, e2] at e1
      omega), ok_bind, asInput_map_some, e1, e2, key]
    rfl
  | false =>
    have e1 : u8OfInt (t : Int) = UInt8.ofNat t := by
      unfold u8OfInt
      apply UInt8.toNat_inj.1
      rw [UInt8.toNat_ofNat', UInt8.toNat_ofNat']
      omega
    rw [if_neg (by decide), threshold_ok hlen.ge, ok_bind, asInput_map_some, e1, key]
    rfl

theorem otsu_at_level (im : Img P w h 4 d) (hn : w * h < 2 ^ 32) {t : Nat}
    (ht : otsuLevel (histOf (w * h) (lumaAt d)) (w * h) = .ok t) (dbl : Bool) :
    Yields (fcv_otsu_threshold_rgba P w h dbl (some d))
      (grayRGBA (w * h) fun i => otsuValue dbl t (lumaAt d i)) := by
  intro hp
  have hsz : w * h * 4 ≤ P.szMax := by rw [← im.len]; exact im.size
  have hg1 : ¬ w > P.szMax / h := P.guard_of_mul_le im.h_pos (by omega)
  have e1 : P.sz (w * h) = w * h := P.sz_eq' (by omega)
  unfold fcv_otsu_threshold_rgba
  simp only [Nat.ne_of_gt im.w_pos, Nat.ne_of_gt im.h_pos, or_self, if_false, hg1, e1]
  refine callThenFree_returns hp (rgba_to_grayscale_correct im hp) ?_
  intro h'
  unfold Spec.gray
  refine HOk.bind (P := fun q h2 => q = mkPx (w * h) 1 (fun i _ => otsuValue dbl t (lumaAt d i)) ∧ h' = h2)
    (HOk.use (by simp) (Ok.of_eq (otsuPixels_ok hn ht dbl) ⟨rfl, rfl⟩)) ?_
  rintro q h2 ⟨rfl, rfl⟩
  have im' : Img P w h 1 (mkPx (w * h) 1 fun i _ => otsuValue dbl t (lumaAt d i)) :=
    ⟨im.w_pos, im.h_pos, im.w_u32, im.h_u32, by simp, by simp; omega⟩
  have := single_to_multichannel_correct im' hsz h'
  rw [show grayRGBA (w * h) (fun i => px1 1 (mkPx (w * h) 1 fun i _ => otsuValue dbl t (lumaAt d i)) i 0)
    = grayRGBA (w * h) fun i => otsuValue dbl t (lumaAt d i) from ?_] at this
  · exact this
  · unfold grayRGBA
    apply mkPx_congr
    intro i c hi _
    simp only [px1_mkPx hi Nat.one_pos]

/-- The call on every valid image of fewer than `2^32` pixels: one level `t`, the first with the
largest variance among those whose accumulated weight is neither 0 nor 1, determines the
result. -/
theorem otsu_correct (im : Img P w h 4 d) (hn : w * h < 2 ^ 32) :
    ∃ t, t < 256 ∧ FirstMax (w * h) (lumaAt d) (Usable (w * h) (lumaAt d)) t ∧
      ∀ dbl, Yields (fcv_otsu_threshold_rgba P w h dbl (some d))
        (grayRGBA (w * h) fun i => otsuValue dbl t (lumaAt d i)) := by
  have hpos : 0 < w * h := Nat.mul_pos im.w_pos im.h_pos
  obtain ⟨t, ht, h1, h2⟩ := otsuLevel_ok (v := lumaAt d) hpos (by omega)
  exact ⟨t, h1, h2, otsu_at_level im hn ht⟩

example : Img .lp64 2 1 4 [0, 0, 0, 255, 200, 200, 200, 255] ∧ 2 * 1 < 2 ^ 32 :=
  ⟨⟨by decide, by decide, by decide, by decide, rfl, by decide⟩, by decide⟩

/-! ### C18: a two-level image -/

/-- C18: without double threshold the result is opaque, black or white, and white exactly where
the luma exceeds one common level. -/
theorem otsu_two_level (im : Img P w h 4 d) (hn : w * h < 2 ^ 32) :
    ∃ t : UInt8, Yields (fcv_otsu_threshold_rgba P w h false (some d))
      (mkPx (w * h) 4 fun i c => if c = 3 then 255 else if t < lumaAt d i then 255 else 0) := by
  obtain ⟨t, _, _, hy⟩ := otsu_correct im hn
  refine ⟨UInt8.ofNat t, ?_⟩
  have := hy false
  rw [show grayRGBA (w * h) (fun i => otsuValue false t (lumaAt d i)) = _ from ?_] at this
  · exact this
  · unfold grayRGBA
    apply mkPx_congr
    intro i c _ hc
    by_cases h3 : c = 3
    · rw [if_neg (by omega), if_pos h3]
    · rw [if_pos (by omega), if_neg h3]
      rfl

/-! ### C19: the level is the first with maximal variance -/

/-- Every image of fewer than `2^32` pixels is cut at the first level of maximal variance among
those that leave pixels on both sides. -/
def OtsuCutsAtFirstMaximum : Prop :=
  ∀ (P : Plat) (w h : Nat) (d : List UInt8), Img P w h 4 d → w * h < 2 ^ 32 →
    ∃ t, t < 256 ∧ FirstMax (w * h) (lumaAt d) (BothClasses (w * h) (lumaAt d)) t ∧
      Yields (fcv_otsu_threshold_rgba P w h false (some d))
        (grayRGBA (w * h) fun i => threshold (UInt8.ofNat t) (lumaAt d i))

/-- C19, weaker: the level is the first maximum among the levels whose accumulated single
precision weight is neither 0 nor 1. -/
theorem otsu_first_maximum_partial (im : Img P w h 4 d) (hn : w * h < 2 ^ 32) :
    ∃ t, t < 256 ∧ FirstMax (w * h) (lumaAt d) (Usable (w * h) (lumaAt d)) t ∧
      Yields (fcv_otsu_threshold_rgba P w h false (some d))
        (grayRGBA (w * h) fun i => threshold (UInt8.ofNat t) (lumaAt d i)) := by
  obtain ⟨t, h1, h2, hy⟩ := otsu_correct im hn
  exact ⟨t, h1, h2, hy false⟩

/-- When the number of pixels is a power of two (up to `2^24`) the accumulated weights are
exact. -/
theorem weight_exact {v : Nat → UInt8} {k : Nat} (hk : k ≤ 24) (l : Nat) :
    weight (2 ^ k) v l = (countP (2 ^ k) fun i => (v i).toNat ≤ l) / 2 ^ k := by
  have h24 : 2 ^ k ≤ 2 ^ 24 := Nat.pow_le_pow_right (by omega) hk
  have ex : ∀ c : Nat, c ≤ 2 ^ 24 → r32 ((c : ℚ) / 2 ^ k) = c / 2 ^ k := by
    intro c hc
    have := rnd_exact Fmt.b32 (m := (c : ℤ)) (e := -(k : ℤ)) (by
      have : Fmt.b32.emin = -149 := rfl
      omega) (by rw [Nat.abs_cast]; exact_mod_cast hc)
    rw [zpow_neg, zpow_natCast, ← div_eq_mul_inv, Int.cast_natCast] at this
    exact this
  have hf : ∀ l, freq (2 ^ k) v l = (countP (2 ^ k) fun i => (v i).toNat == l) / 2 ^ k := by
    intro l
    have hc := countP_le (2 ^ k) fun i => (v i).toNat == l
    unfold freq
    rw [r32_nat (by omega), r32_nat (by omega)]
    push_cast
    exact ex _ (by omega)
  have hs : ∀ j, sum32 (freq (2 ^ k) v) j = (countP (2 ^ k) fun i => (v i).toNat < j) / 2 ^ k := by
    intro j
    induction j with
    | zero =>
      rw [countP_false (by simp)]
      simp [sum32]
    | succ j ih =>
      have hadd : countP (2 ^ k) (fun i => (v i).toNat < j + 1)
          = countP (2 ^ k) (fun i => (v i).toNat < j) + countP (2 ^ k) (fun i => (v i).toNat == j) := by
        apply countP_add
        intro i _
        simp only [decide_eq_true_eq, beq_iff_eq]
        split <;> split <;> split <;> omega
      have hc := countP_le (2 ^ k) fun i => (v i).toNat < j + 1
      unfold sum32
      rw [ih, hf, ← add_div, ← Nat.cast_add, ← hadd]
      exact ex _ (by omega)
  unfold weight
  rw [hs]
  congr 2
  exact countP_congr fun i _ => decide_eq_decide.2 (by omega)

theorem usable_iff_both {v : Nat → UInt8} {k : Nat} (hk : k ≤ 24) (l : Nat) :
    Usable (2 ^ k) v l ↔ BothClasses (2 ^ k) v l := by
  have h2 : (0 : ℚ) < 2 ^ k := by positivity
  unfold Usable BothClasses
  rw [weight_exact hk]
  have hadd : countP (2 ^ k) (fun _ => true)
      = countP (2 ^ k) (fun i => (v i).toNat ≤ l) + countP (2 ^ k) (fun i => l < (v i).toNat) := by
    apply countP_add
    intro i _
    simp only [decide_eq_true_eq, if_true]
    split <;> split <;> omega
  rw [countP_true (fun _ _ => rfl)] at hadd
  refine and_congr ?_ ?_
  · rw [Ne, div_eq_zero_iff, or_iff_left h2.ne', Nat.cast_eq_zero]
    constructor
    · intro hne
      by_contra hc
      refine hne (countP_false fun i hi => ?_)
      simp only [decide_eq_false_iff_not]
      exact fun hle => hc ⟨i, hi, hle⟩
    · rintro ⟨i, hi, hle⟩
      exact (countP_pos hi (by simpa using hle)).ne'
  · rw [Ne, div_eq_one_iff_eq h2.ne']
    have : ((countP (2 ^ k) fun i => (v i).toNat ≤ l : ℕ) : ℚ) = 2 ^ k
        ↔ countP (2 ^ k) (fun i => (v i).toNat ≤ l) = 2 ^ k := by
      rw [show ((2 : ℚ) ^ k) = ((2 ^ k : ℕ) : ℚ) by push_cast; rfl]
      exact Nat.cast_inj
    rw [this]
    constructor
    · intro hne
      by_contra hc
      apply hne
      have : countP (2 ^ k) (fun i => l < (v i).toNat) = 0 := countP_false fun i hi => by
        simp only [decide_eq_false_iff_not]
        exact fun hlt => hc ⟨i, hi, hlt⟩
      omega
    · rintro ⟨i, hi, hlt⟩
      have := countP_pos (p := fun i => l < (v i).toNat) hi (by simpa using hlt)
      omega

/-- C19 holds for images whose number of pixels is a power of two up to `2^24`. -/
theorem otsu_first_maximum_pow2_partial (im : Img P w h 4 d) {k : Nat} (hn : w * h = 2 ^ k)
    (hk : k ≤ 24) :
    ∃ t, t < 256 ∧ FirstMax (w * h) (lumaAt d) (BothClasses (w * h) (lumaAt d)) t ∧
      Yields (fcv_otsu_threshold_rgba P w h false (some d))
        (grayRGBA (w * h) fun i => threshold (UInt8.ofNat t) (lumaAt d i)) := by
  have h24 : 2 ^ k ≤ 2 ^ 24 := Nat.pow_le_pow_right (by omega) hk
  obtain ⟨t, h1, h2, hy⟩ := otsu_first_maximum_partial im (by omega)
  refine ⟨t, h1, ?_, hy⟩
  have : Usable (w * h) (lumaAt d) = BothClasses (w * h) (lumaAt d) := by
    rw [hn]
    exact funext fun l => propext (usable_iff_both hk l)
  rw [← this]
  exact h2

example : Img .lp64 2 1 4 [0, 0, 0, 255, 200, 200, 200, 255] ∧ 2 * 1 = 2 ^ 1 :=
  ⟨⟨by decide, by decide, by decide, by decide, rfl, by decide⟩, rfl⟩

/-! ### The witness: a nearly uniform bright image that comes out black -/

/-- Values of a 442177-pixel image: 26 pixels between 243 and 254, all others 255. -/
def speckled (i : Nat) : UInt8 :=
  if i < 2 then 243 else if i < 6 then 246 else if i < 10 then 247 else if i < 12 then 248
  else if i < 13 then 249 else if i < 17 then 250 else if i < 19 then 251 else if i < 23 then 253
  else if i < 26 then 254 else 255

def speckledImg : List UInt8 := grayRGBA 442177 speckled

theorem lumaAt_grayRGBA {n i : Nat} {v : Nat → UInt8} (hi : i < n) : lumaAt (grayRGBA n v) i = v i := by
  unfold lumaAt grayRGBA
  rw [px1_mkPx hi (by omega), px1_mkPx hi (by omega), px1_mkPx hi (by omega)]
  exact luma_self _

theorem countP_tail (m k : Nat) (p : Nat → Bool) (b : Bool) (hp : ∀ i, m ≤ i → p i = b) :
    countP (m + k) p = countP m p + if b then k else 0 := by
  induction k with
  | zero => simp
  | succ k ih =>
    rw [← Nat.add_assoc, countP_succ, ih, hp (m + k) (by omega)]
    cases b with
    | true => simp; omega
    | false => simp

/-- The histogram of the witness. -/
def speckledHist : Cells Nat := (List.range 256).map fun l =>
  some (countP 26 (fun i => (speckled i).toNat == l) + if l == 255 then 442151 else 0)

theorem speckled_hist : histOf 442177 speckled = speckledHist := by
  unfold histOf speckledHist
  apply List.map_congr_left
  intro l _
  have := countP_tail 26 442151 (fun i => (speckled i).toNat == l) (l == 255) (by
    intro i hi
    have e : speckled i = 255 := by
      unfold speckled
      repeat rw [if_neg (by omega)]
    rw [e, show (255 : UInt8).toNat = 255 from rfl]
    by_cases h : l = 255
    · subst h; rfl
    · rw [beq_eq_false_iff_ne.2 (Ne.symm h), beq_eq_false_iff_ne.2 h])
  rw [← this]

set_option maxRecDepth 10000 in
theorem speckled_level : otsuLevel speckledHist 442177 = .ok 255 := by
  have : (match otsuLevel speckledHist 442177 with | .ok t => t == 255 | _ => false) = true := by
    decide +kernel
  revert this
  cases otsuLevel speckledHist 442177 with
  | error e => intro h; cases h
  | ok t => intro h; rw [beq_iff_eq.1 h]

theorem speckled_img : Img .lp64 442177 1 4 speckledImg :=
  ⟨by omega, by omega, by decide, by decide, by unfold speckledImg grayRGBA; rw [mkPx_length],
    by unfold speckledImg grayRGBA; rw [mkPx_length]; decide⟩

theorem speckled_black :
    Yields (fcv_otsu_threshold_rgba .lp64 442177 1 false (some speckledImg)) (grayRGBA 442177 fun _ => 0) := by
  have hl : ∀ i, i < 442177 → lumaAt speckledImg i = speckled i := fun i hi => lumaAt_grayRGBA hi
  have hh : histOf (442177 * 1) (lumaAt speckledImg) = speckledHist := by
    rw [← speckled_hist]
    unfold histOf
    apply List.map_congr_left
    intro l _
    rw [countP_congr fun i hi => by rw [hl i (by omega)]]
  have := otsu_at_level speckled_img (by omega) (t := 255) (by rw [hh]; exact speckled_level) false
  rw [show grayRGBA (442177 * 1) (fun i => otsuValue false 255 (lumaAt speckledImg i))
    = grayRGBA 442177 fun _ => 0 from ?_] at this
  · exact this
  · unfold grayRGBA
    apply mkPx_congr
    intro i c _ _
    have : ¬ UInt8.ofNat 255 < lumaAt speckledImg i := by
      rw [UInt8.lt_iff_toNat_lt, show (UInt8.ofNat 255).toNat = 255 from rfl]
      have := (lumaAt speckledImg i).toNat_lt
      omega
    simp only [otsuValue, threshold, this, if_false, Bool.false_eq_true]

/-- Two results of the same call are equal. -/
theorem Yields.unique {m : HM (Option (Buf UInt8))} {a b : List UInt8} (ha : Yields m a) (hb : Yields m b) :
    a = b := by
  obtain ⟨r, h', e, hc⟩ := ha.succeeds (hp := Heap.fresh) (fun _ => rfl)
  exact map_some_inj (hc.symm.trans (hb.result e))

/-- C19 is false: on the witness the level used leaves nothing above it. -/
theorem not_otsuCutsAtFirstMaximum : ¬ OtsuCutsAtFirstMaximum := by
  intro hall
  obtain ⟨t, ht, hm, hy⟩ := hall .lp64 442177 1 speckledImg speckled_img (by omega)
  have he := Yields.unique hy speckled_black
  have hpx := congrArg (fun l => px1 4 l 30 0) he
  simp only [grayRGBA] at hpx
  rw [px1_mkPx (by omega) (by omega), px1_mkPx (by omega) (by omega), if_pos (by omega),
    if_pos (by omega)] at hpx
  have h255 : lumaAt speckledImg 30 = 255 := lumaAt_grayRGBA (by omega)
  rw [h255] at hpx
  have ht255 : t = 255 := by
    unfold threshold at hpx
    by_contra hne
    rw [if_pos (by
      rw [UInt8.lt_iff_toNat_lt, UInt8.toNat_ofNat', show (255 : UInt8).toNat = 255 from rfl]
      omega)] at hpx
    cases hpx
  subst ht255
  rcases hm with ⟨h0, _⟩ | ⟨_, ⟨_, i, _, hi⟩, _⟩
  · cases h0
  · have := (lumaAt speckledImg i).toNat_lt
    omega

/-! ### C79: two gray levels stay two -/

/-- An image with at least two gray levels has both black and white in its Otsu result. -/
def OtsuKeepsBothColours : Prop :=
  ∀ (P : Plat) (w h : Nat) (d out : List UInt8), Img P w h 4 d → w * h < 2 ^ 32 →
    (∃ i j, i < w * h ∧ j < w * h ∧ lumaAt d i ≠ lumaAt d j) →
    Yields (fcv_otsu_threshold_rgba P w h false (some d)) out →
    (∃ i, i < w * h ∧ lumaAt out i = 0) ∧ ∃ j, j < w * h ∧ lumaAt out j = 255

/-- C79 is false. -/
theorem not_otsuKeepsBothColours : ¬ OtsuKeepsBothColours := by
  intro hall
  obtain ⟨_, j, hj, h2⟩ := hall .lp64 442177 1 speckledImg _ speckled_img (by omega)
    ⟨0, 30, by omega, by omega, by
      have h0 : lumaAt speckledImg 0 = 243 := lumaAt_grayRGBA (by omega)
      have h30 : lumaAt speckledImg 30 = 255 := lumaAt_grayRGBA (by omega)
      rw [h0, h30]
      decide⟩ speckled_black
  rw [lumaAt_grayRGBA (by omega)] at h2
  cases h2

/-- C79 for images of `2^k` pixels, `k ≤ 24`, in which some split has positive variance. -/
theorem otsu_keeps_both_partial (im : Img P w h 4 d) {k : Nat} (hn : w * h = 2 ^ k) (hk : k ≤ 24)
    {l : Nat} (hl : l < 256) (hb : BothClasses (w * h) (lumaAt d) l)
    (hv : 0 < variance (w * h) (lumaAt d) l) {out : List UInt8}
    (hy : Yields (fcv_otsu_threshold_rgba P w h false (some d)) out) :
    (∃ i, i < w * h ∧ lumaAt out i = 0) ∧ ∃ j, j < w * h ∧ lumaAt out j = 255 := by
  obtain ⟨t, ht, hm, hy'⟩ := otsu_first_maximum_pow2_partial im hn hk
  rw [Yields.unique hy hy']
  rcases hm with ⟨_, h0⟩ | ⟨_, ⟨⟨i, hi, hle⟩, j, hj, hgt⟩, _⟩
  · have := h0 l hl hb
    linarith
  · refine ⟨⟨i, hi, ?_⟩, j, hj, ?_⟩
    · rw [lumaAt_grayRGBA hi]
      unfold threshold
      rw [if_neg]
      rw [UInt8.lt_iff_toNat_lt, UInt8.toNat_ofNat']
      omega
    · rw [lumaAt_grayRGBA hj]
      unfold threshold
      rw [if_pos]
      rw [UInt8.lt_iff_toNat_lt, UInt8.toNat_ofNat']
      omega

/-- A dark and a bright pixel. -/
def pairImg : List UInt8 := [10, 10, 10, 255, 200, 200, 200, 255]

set_option maxRecDepth 10000 in
theorem pair_level : otsuLevel (histOf 2 (lumaAt pairImg)) 2 = .ok 10 := by
  have : (match otsuLevel (histOf 2 (lumaAt pairImg)) 2 with | .ok t => t == 10 | _ => false) = true := by
    decide +kernel
  revert this
  cases otsuLevel (histOf 2 (lumaAt pairImg)) 2 with
  | error e => intro h; cases h
  | ok t => intro h; rw [beq_iff_eq.1 h]

/-- The hypotheses hold for a dark and a bright pixel. -/
example : Img .lp64 2 1 4 pairImg ∧ BothClasses 2 (lumaAt pairImg) 10 ∧ 0 < variance 2 (lumaAt pairImg) 10 := by
  refine ⟨⟨by decide, by decide, by decide, by decide, rfl, by decide⟩,
    ⟨⟨0, by omega, by decide⟩, 1, by omega, by decide⟩, ?_⟩
  obtain ⟨t, ht, _, hm⟩ := otsuLevel_ok (n := 2) (v := lumaAt pairImg) (by omega) (by omega)
  rw [pair_level] at ht
  cases ht
  rcases hm with ⟨h0, _⟩ | ⟨_, _, h0, _⟩
  · cases h0
  · exact h0

/-! ### C20: the smooth threshold -/

/-- With double threshold every image of fewer than `2^32` pixels goes through the ramp of
width 32 around a level that is the (first) maximum used by the plain threshold too. -/
def OtsuRampIsCentred : Prop :=
  ∀ (P : Plat) (w h : Nat) (d : List UInt8), Img P w h 4 d → w * h < 2 ^ 32 →
    ∃ t, t < 256 ∧
      Yields (fcv_otsu_threshold_rgba P w h false (some d))
        (grayRGBA (w * h) fun i => threshold (UInt8.ofNat t) (lumaAt d i)) ∧
      Yields (fcv_otsu_threshold_rgba P w h true (some d))
        (grayRGBA (w * h) fun i => ramp (t - 16) (t + 16) (lumaAt d i))

/-- C20 when the level lies between 16 and 239; and no image divides by zero or faults. -/
theorem otsu_ramp_partial (im : Img P w h 4 d) (hn : w * h < 2 ^ 32) :
    ∃ t, t < 256 ∧ FirstMax (w * h) (lumaAt d) (Usable (w * h) (lumaAt d)) t ∧
      (16 ≤ t → t ≤ 239 → Yields (fcv_otsu_threshold_rgba P w h true (some d))
        (grayRGBA (w * h) fun i => ramp (t - 16) (t + 16) (lumaAt d i))) ∧
      (t < 16 → Yields (fcv_otsu_threshold_rgba P w h true (some d))
        (grayRGBA (w * h) fun i => threshold (UInt8.ofNat (t + 239)) (lumaAt d i))) ∧
      (239 < t → Yields (fcv_otsu_threshold_rgba P w h true (some d))
        (grayRGBA (w * h) fun i => threshold (UInt8.ofNat (t - 17)) (lumaAt d i))) := by
  obtain ⟨t, h1, h2, hy⟩ := otsu_correct im hn
  have inv : ∀ lo hi : Nat, hi < lo → lo < 256 → ∀ v : UInt8, ramp lo hi v = threshold (UInt8.ofNat (lo - 1)) v := by
    intro lo hi hlt hlo v
    unfold ramp threshold
    by_cases hv : v.toNat < lo
    · rw [if_pos hv, if_neg]
      rw [UInt8.lt_iff_toNat_lt, UInt8.toNat_ofNat']
      omega
    · rw [if_neg hv, if_pos (by omega), if_pos]
      rw [UInt8.lt_iff_toNat_lt, UInt8.toNat_ofNat']
      omega
  refine ⟨t, h1, h2, fun ha hb => ?_, fun ha => ?_, fun ha => ?_⟩
  · have := hy true
    simp only [otsuValue, if_true] at this
    rwa [show (t + 240) % 256 = t - 16 by omega, show (t + 16) % 256 = t + 16 by omega] at this
  · have := hy true
    simp only [otsuValue, if_true] at this
    rw [show (t + 240) % 256 = t + 240 by omega, show (t + 16) % 256 = t + 16 by omega] at this
    simp only [inv (t + 240) (t + 16) (by omega) (by omega)] at this
    rwa [show t + 240 - 1 = t + 239 by omega] at this
  · have := hy true
    simp only [otsuValue, if_true] at this
    rw [show (t + 240) % 256 = t - 16 by omega, show (t + 16) % 256 = t - 240 by omega] at this
    simp only [inv (t - 16) (t - 240) (by omega) (by omega)] at this
    rwa [show t - 16 - 1 = t - 17 by omega] at this

/-- A black and a dark gray pixel. -/
def darkPair : List UInt8 := [0, 0, 0, 255, 40, 40, 40, 255]

theorem dark_img : Img .lp64 2 1 4 darkPair :=
  ⟨by decide, by decide, by decide, by decide, rfl, by decide⟩

set_option maxRecDepth 10000 in
theorem dark_level : otsuLevel (histOf (2 * 1) (lumaAt darkPair)) (2 * 1) = .ok 0 := by
  have : (match otsuLevel (histOf (2 * 1) (lumaAt darkPair)) (2 * 1) with
      | .ok t => t == 0 | _ => false) = true := by
    decide +kernel
  revert this
  cases otsuLevel (histOf (2 * 1) (lumaAt darkPair)) (2 * 1) with
  | error e => intro h; cases h
  | ok t => intro h; rw [beq_iff_eq.1 h]

/-- C20 is false: the plain threshold separates the two pixels (level below 40), but with double
threshold the pixel of value 40 comes out black; no level below 40 - 16 has that ramp, and no
level at or above 24 and below 40 maps the black pixel and this one both to 0. -/
theorem not_otsuRampIsCentred : ¬ OtsuRampIsCentred := by
  intro hall
  obtain ⟨t, ht, hp, hr⟩ := hall .lp64 2 1 darkPair dark_img (by omega)
  have e1 := Yields.unique hp (otsu_at_level dark_img (by omega) dark_level false)
  have e2 := Yields.unique hr (otsu_at_level dark_img (by omega) dark_level true)
  have p1 := congrArg (fun l => px1 4 l 1 0) e1
  have p2 := congrArg (fun l => px1 4 l 1 0) e2
  simp only [grayRGBA] at p1 p2
  rw [px1_mkPx (by omega) (by omega), px1_mkPx (by omega) (by omega), if_pos (by omega),
    if_pos (by omega)] at p1 p2
  have hl : lumaAt darkPair 1 = 40 := by decide
  rw [hl] at p1 p2
  rw [show otsuValue false 0 40 = 255 from by decide] at p1
  rw [show otsuValue true 0 40 = 0 from by decide] at p2
  have ht40 : t < 40 := by
    unfold threshold at p1
    by_contra hc
    rw [if_neg (by
      rw [UInt8.lt_iff_toNat_lt, UInt8.toNat_ofNat', show (40 : UInt8).toNat = 40 from rfl]
      omega)] at p1
    cases p1
  unfold ramp at p2
  rw [show (40 : UInt8).toNat = 40 from rfl, if_neg (by omega)] at p2
  by_cases h2 : t + 16 < 40
  · rw [if_pos h2] at p2
    cases p2
  · rw [if_neg h2] at p2
    have p3 := congrArg UInt8.toNat p2
    rw [UInt8.toNat_ofNat', show (0 : UInt8).toNat = 0 from rfl,
      show t + 16 - (t - 16) = 32 by omega] at p3
    have b1 : 1 ≤ (40 - (t - 16)) * 255 / 32 := by omega
    have b2 : (40 - (t - 16)) * 255 / 32 ≤ 255 := by omega
    omega

/-! ### C80: images of any size -/

/-- Every valid image that the memory can hold is thresholded. -/
def OtsuAnySize : Prop :=
  ∀ (P : Plat) (w h : Nat) (d : List UInt8), Img P w h 4 d →
    ∃ r, fcv_otsu_threshold_rgba P w h false (some d) Heap.fresh = .ok r

/-- From `2^32` pixels on the counting loop never ends. -/
theorem otsu_large_hangs (im : Img P w h 4 d) (hn : 2 ^ 32 ≤ w * h) (dbl : Bool) (r) :
    fcv_otsu_threshold_rgba P w h dbl (some d) Heap.fresh ≠ .ok r := by
  have hsz : w * h * 4 ≤ P.szMax := by rw [← im.len]; exact im.size
  have hg1 : ¬ w > P.szMax / h := P.guard_of_mul_le im.h_pos (by omega)
  have e1 : P.sz (w * h) = w * h := P.sz_eq' (by omega)
  unfold fcv_otsu_threshold_rgba
  simp only [Nat.ne_of_gt im.w_pos, Nat.ne_of_gt im.h_pos, or_self, if_false, hg1, e1]
  obtain ⟨b, h', e, hc⟩ := (rgba_to_grayscale_correct im).succeeds (hp := Heap.fresh) (fun _ => rfl)
  obtain ⟨r', h2, e', hq⟩ := rgba_to_grayscale_correct im Heap.fresh
  rw [e] at e'
  cases e'
  have hlive : b.id ∈ h'.live := by rw [hq.1.1]; simp
  intro hr
  have hd : ∀ g, ∃ e, otsuPixels (w * h) dbl g = .error e := by
    intro g
    unfold otsuPixels histogramLoop
    cases hf : forU32 (w * h) (List.replicate 256 (some 0)) (fun i hist => do
      let v ← rd (g.map some) i
      let c ← rd hist v.toNat
      wr hist v.toNat (u32 (c + 1))) with
    | error e => exact ⟨e, rfl⟩
    | ok s => exact absurd hf (forU32_ne_ok (by omega) _ _ s)
  obtain ⟨er, her⟩ := hd (Spec.gray (w * h) d)
  simp [callThenFree, hm_bind, e, use, hlive, hc, asInput_map_some, her, Except.map] at hr

theorem not_otsuAnySize : ¬ OtsuAnySize := by
  intro hall
  have im : Img .lp64 65536 65536 4 (List.replicate (65536 * 65536 * 4) 0) :=
    ⟨by omega, by omega, by decide, by decide, by rw [List.length_replicate],
      by rw [List.length_replicate]; decide⟩
  obtain ⟨r, hr⟩ := hall _ _ _ _ im
  exact otsu_large_hangs im (by omega) false r hr

/-- C80 below `2^32` pixels. -/
theorem otsu_any_size_partial (im : Img P w h 4 d) (hn : w * h < 2 ^ 32) (dbl : Bool) :
    ∃ b h', fcv_otsu_threshold_rgba P w h dbl (some d) Heap.fresh = .ok (some b, h') := by
  obtain ⟨t, _, _, hy⟩ := otsu_correct im hn
  obtain ⟨b, h', e, _⟩ := (hy dbl).succeeds (hp := Heap.fresh) (fun _ => rfl)
  exact ⟨b, h', e⟩

/-! ### C09 -/

theorem otsu_rejects {data : Option (List UInt8)} (hp : Heap) (dbl : Bool)
    (hbad : data = none ∨ w = 0 ∨ h = 0) : Rejects (fcv_otsu_threshold_rgba P w h dbl data) hp := by
  unfold Rejects
  cases data with
  | none => rfl
  | some d =>
    have h0 : w = 0 ∨ h = 0 := by simpa using hbad
    simp [fcv_otsu_threshold_rgba, h0]

end FlatCV.Props
