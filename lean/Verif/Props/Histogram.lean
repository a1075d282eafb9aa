/-
C42, C72: the histogram picture.
-/
import Verif.Lemmas.Histogram

namespace FlatCV.Props
open FlatCV Model Spec

variable {P : Plat} {w h ch : Nat} {d : List UInt8}

/-- The call on a valid image of any size: counts and the product with 200 are reduced to 32
bits. -/
theorem histogram_wrapped (im : Img P w h ch d) (hch : 0 < ch) :
    ∃ m, IsMaxBar (wrappedBar (w * h) ch d) m ∧
      YieldsDims (fcv_generate_histogram P w h ch (some d)) 256 200
        (barChart fun c v => u32 (wrappedBar (w * h) ch d c v * 200) / m) := by
  have hs := im.size
  have hl := im.len
  have hle : w * h ≤ w * h * ch := Nat.le_mul_of_pos_right _ hch
  obtain ⟨m, hm, hf⟩ := fillHistogram_ok (P := P) hl hs hch
  refine ⟨m, hm, fun hp => ?_⟩
  have hw := im.w_pos
  have hh := im.h_pos
  have e1 : P.sz (w * h) = w * h := P.sz_eq' (by omega)
  have e2 : P.sz (P.sz (256 * 200) * 4) = 204800 := by
    have := P.mod_ge
    rw [P.sz_eq (by omega : 256 * 200 < P.mod), P.sz_eq (by omega)]
  have z : ¬ (w = 0 ∨ h = 0 ∨ ch = 0) := by omega
  unfold fcv_generate_histogram
  simp only [z, if_false]
  rw [if_neg (P.guard_of_mul_le hh (by omega)), e1,
    if_neg (P.guard_of_mul_le hch (by omega)), e2]
  exact callocFill_dims hp hf

/-- C42: for images of fewer than `2^32/200` pixels the picture is the bar chart of the true
counts, scaled so that the largest count fills the 200 rows. -/
theorem histogram_correct (im : Img P w h ch d) (hch : 0 < ch) (hn : w * h * 200 < 2 ^ 32) :
    ∃ m, IsMaxBar (histBar (w * h) ch d) m ∧ 0 < m ∧
      YieldsDims (fcv_generate_histogram P w h ch (some d)) 256 200
        (barChart fun c v => 200 * histBar (w * h) ch d c v / m) := by
  have hle : ∀ c v, histBar (w * h) ch d c v ≤ w * h := by
    intro c v
    unfold histBar
    split
    · exact countP_le _ _
    · split
      · exact countP_le _ _
      · exact Nat.zero_le _
  have e1 : wrappedBar (w * h) ch d = histBar (w * h) ch d := by
    funext c v
    have := hle c v
    exact u32_eq (by omega)
  obtain ⟨m, hm, hy⟩ := histogram_wrapped im hch
  rw [e1] at hm hy
  refine ⟨m, hm, ?_, ?_⟩
  · have hpos : 0 < w * h := Nat.mul_pos im.w_pos im.h_pos
    have hlt := (px1 ch d 0 0).toNat_lt
    have := hm.1 0 (px1 ch d 0 0).toNat (by omega) hlt
    refine Nat.lt_of_lt_of_le ?_ this
    unfold histBar
    split
    · exact countP_pos hpos (by simp)
    · rw [if_pos (Or.inl rfl)]
      exact countP_pos hpos (by simp)
  · have e2 : (fun c v => u32 (histBar (w * h) ch d c v * 200) / m)
        = fun c v => 200 * histBar (w * h) ch d c v / m := by
      funext c v
      have := hle c v
      rw [u32_eq (by omega), Nat.mul_comm]
    rw [e2] at hy
    exact hy

/-- In the chart of C42 a most frequent value fills its column. -/
theorem histogram_full_column {n : Nat} {m c v : Nat} (hm : 0 < m) (hv : v < 256) (hc : c < 3)
    (h : histBar n ch d c v = m) {y : Nat} (hy : y < 200) :
    px 256 4 (barChart fun c v => 200 * histBar n ch d c v / m) v y c = 255 := by
  have e : 200 * m / m = 200 := Nat.mul_div_cancel _ hm
  unfold barChart
  rw [px_mkImg hv hy (by omega)]
  simp only [h, e]
  rw [if_pos (by omega)]

/-- The picture does not depend on the order of the pixels: images whose histograms agree give
the same chart. -/
theorem histogram_depends_on_counts {w' h' ch' : Nat} {d' : List UInt8}
    (im : Img P w h ch d) (hch : 0 < ch) (hn : w * h * 200 < 2 ^ 32)
    (im' : Img P w' h' ch' d') (hch' : 0 < ch') (hn' : w' * h' * 200 < 2 ^ 32)
    (heq : histBar (w * h) ch d = histBar (w' * h') ch' d') :
    ∃ out, YieldsDims (fcv_generate_histogram P w h ch (some d)) 256 200 out ∧
      YieldsDims (fcv_generate_histogram P w' h' ch' (some d')) 256 200 out := by
  obtain ⟨m, hm, _, hy⟩ := histogram_correct im hch hn
  obtain ⟨m', hm', _, hy'⟩ := histogram_correct im' hch' hn'
  have : m = m' := by
    rw [← heq] at hm'
    obtain ⟨c, v, hc, hv, e⟩ := hm.2
    obtain ⟨c', v', hc', hv', e'⟩ := hm'.2
    have := hm.1 c' v' hc' hv'
    have := hm'.1 c v hc hv
    omega
  subst this
  rw [← heq] at hy'
  exact ⟨_, hy, hy'⟩

/-- Invalid arguments are refused without touching the heap. -/
theorem histogram_rejects (hbad : w = 0 ∨ h = 0 ∨ ch = 0) (hp : Heap) (data : Option (List UInt8)) :
    fcv_generate_histogram P w h ch data hp = .ok ((none, none), hp) := by
  unfold fcv_generate_histogram
  cases data with
  | none => rfl
  | some d => simp only [hbad, if_true]; rfl

/-! ### C72: large images -/

/-- The claim of C42 without the size bound. -/
def HistogramAnySize : Prop :=
  ∀ (P : Plat) (w h ch : Nat) (d : List UInt8), Img P w h ch d → 0 < ch → w * h < 2 ^ 32 →
    ∃ m, IsMaxBar (histBar (w * h) ch d) m ∧ 0 < m ∧
      YieldsDims (fcv_generate_histogram P w h ch (some d)) 256 200
        (barChart fun c v => 200 * histBar (w * h) ch d c v / m)

theorem px1_replicate_zero (n ch i c : Nat) : px1 ch (List.replicate n 0) i c = 0 := by
  unfold px1
  rw [List.getElem?_replicate]
  split <;> rfl

/-- An all-black gray image of 21474837 pixels: its histogram picture is empty. -/
theorem histogram_large_is_empty :
    YieldsDims (fcv_generate_histogram .lp64 21474837 1 1 (some (List.replicate 21474837 0)))
      256 200 (barChart fun _ _ => 0) := by
  have im : Img .lp64 21474837 1 1 (List.replicate 21474837 0) :=
    ⟨by omega, by omega, by decide, by decide, by rw [List.length_replicate],
      by rw [List.length_replicate]; decide⟩
  obtain ⟨m, hm, hy⟩ := histogram_wrapped im (by omega)
  have hb : ∀ c v, wrappedBar (21474837 * 1) 1 (List.replicate 21474837 0) c v
      = if v = 0 then 21474837 else 0 := by
    intro c v
    unfold wrappedBar histBar
    have hg : IsGrayImg (21474837 * 1) 1 (List.replicate 21474837 0) := Or.inl rfl
    simp only [hg, if_true, px1_replicate_zero]
    by_cases e : v = 0
    · subst e
      rw [countP_true (p := fun _ => (0 : UInt8).toNat == 0) (fun _ _ => rfl)]; decide
    · rw [countP_false (fun _ _ => by simpa using fun h => e h.symm), if_neg e]; decide
  have hm' : m = 21474837 := by
    obtain ⟨c, v, hc, hv, e⟩ := hm.2
    have := hm.1 0 0 (by omega) (by omega)
    rw [hb] at e this
    simp only [if_true] at this
    split at e <;> omega
  subst hm'
  have e2 : (fun c v => u32 (wrappedBar (21474837 * 1) 1 (List.replicate 21474837 0) c v * 200)
      / 21474837) = fun _ _ => 0 := by
    funext c v
    rw [hb]
    split <;> decide
  rw [e2] at hy
  exact hy

/-- C72 is false: the product with 200 overflows. -/
theorem not_histogramAnySize : ¬ HistogramAnySize := by
  intro hc
  have im : Img .lp64 21474837 1 1 (List.replicate 21474837 0) :=
    ⟨by omega, by omega, by decide, by decide, by rw [List.length_replicate],
      by rw [List.length_replicate]; decide⟩
  obtain ⟨m, hm, hpos, hy⟩ := hc .lp64 21474837 1 1 _ im (by omega) (by omega)
  have hy' := histogram_large_is_empty
  obtain ⟨⟨r, o⟩, h', e, _, hq⟩ := hy .fresh
  obtain ⟨⟨r', o'⟩, h'', e', _, hq'⟩ := hy' .fresh
  rw [e] at e'
  cases e'
  cases r with
  | none => obtain ⟨_, _, _, i, _, _, hi⟩ := hq; cases hi
  | some b =>
    have hcells := map_some_inj (hq.2.symm.trans hq'.2)
    obtain ⟨c, v, hcc, hv, ev⟩ := hm.2
    have h1 := histogram_full_column hpos hv hcc ev (y := 0) (by omega)
    rw [hcells] at h1
    unfold barChart at h1
    rw [px_mkImg hv (by omega) (by omega)] at h1
    simp at h1
    omega

/-! ### A concrete instance -/

/-- A 2×2 RGB image. -/
def histExample : List UInt8 := [0, 0, 9, 0, 1, 9, 7, 0, 9, 0, 1, 9]

example : Img .lp64 2 2 3 histExample :=
  ⟨by decide, by decide, by decide, by decide, rfl, by decide⟩
example : IsMaxBar (histBar 4 3 histExample) 4 := by
  refine ⟨fun c v _ _ => ?_, 2, 9, by decide, by decide, by decide⟩
  have : ¬ IsGrayImg 4 3 histExample := by decide
  unfold histBar
  rw [if_neg this]
  split
  · exact countP_le _ _
  · omega
example : histBar 4 3 histExample 0 0 = 3 ∧ 200 * histBar 4 3 histExample 0 0 / 4 = 150 := by decide

end FlatCV.Props
