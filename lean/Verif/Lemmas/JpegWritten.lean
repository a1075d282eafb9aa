import Verif.Lemmas.JpegLoadFile
import Verif.Props.Jpeg
import Verif.Props.JpegKernel
import Mathlib.Algebra.Order.Chebyshev

/-! Helper lemmas: the coefficients of a written file are in the range of the decoder. -/

namespace FlatCV
open Model Jpg Props

theorem sample_abs (w h : ℕ) (data : List UInt8) (c y x : ℕ) : |((sample w h data c y x : ℚ) : ℝ)| ≤ 128 := by
  unfold sample
  split
  · exact plane_range _ _ _ _ _ _
  · have h1 := abs_le.1 (plane_range data w h c (2 * y) (2 * x))
    have h2 := abs_le.1 (plane_range data w h c (2 * y) (2 * x + 1))
    have h3 := abs_le.1 (plane_range data w h c (2 * y + 1) (2 * x))
    have h4 := abs_le.1 (plane_range data w h c (2 * y + 1) (2 * x + 1))
    push_cast
    rw [abs_le]
    constructor <;> linarith [h1.1, h1.2, h2.1, h2.2, h3.1, h3.2, h4.1, h4.2]

theorem zigzag_lt : ∀ k < 64, (zigzag.getD k (0, 0)).1 < 8 ∧ (zigzag.getD k (0, 0)).2 < 8 := by decide +kernel

theorem ideal_abs (w h : ℕ) (data : List UInt8) (c i j : ℕ) {k : ℕ} (hk : k < 64) : |ideal w h data c i j k| ≤ 1028 := by
  unfold ideal
  refine (dct_bound (m := 128) (fun y _ x _ => sample_abs w h data c _ _) (by norm_num) (zigzag_lt k hk).1 (zigzag_lt k hk).2).trans (by norm_num)

theorem block_fits {w h : ℕ} {data table : List UInt8} {c i j : ℕ} {b : List Int} (B : BlockOk w h data table c i j b) {p : ℕ} (hp : p < 64) :
    |b.getD p 0 * ((table.getD p 0).toNat : ℕ)| ≤ 2300 := by
  have h1 := B.2 p hp
  have h2 := ideal_abs w h data c i j hp
  have h3 : (((table.getD p 0).toNat : ℕ) : ℝ) ≤ 255 := by
    have := (table.getD p 0).toNat_lt
    exact_mod_cast (by omega : (table.getD p 0).toNat ≤ 255)
  have h4 : |((table.getD p 0).toNat : ℝ) * (b.getD p 0 : ℝ)| ≤ 2300 := by
    rw [abs_le] at h1 h2 ⊢
    constructor <;> linarith [h1.1, h1.2, h2.1, h2.2]
  have h5 : ((|b.getD p 0 * ((table.getD p 0).toNat : ℕ)| : Int) : ℝ) ≤ ((2300 : Int) : ℝ) := by
    rw [Int.cast_abs]
    push_cast
    rw [mul_comm]
    exact h4
  exact_mod_cast h5

section
variable {w h : ℕ} {data : List UInt8} {ms : List (List (List (List Int)))}
  (hl : ms.length = (h + 15) / 16 * ((w + 15) / 16))
  (hm : ∀ i j, i < (h + 15) / 16 → j < (w + 15) / 16 → McuOk w h data yTab uvTab i j (ms.getD (i * ((w + 15) / 16) + j) []))
include hl hm

theorem mcu_at {q : ℕ} (hq : q < ms.length) : McuOk w h data yTab uvTab (q / ((w + 15) / 16)) (q % ((w + 15) / 16)) (ms.getD q []) := by
  have hX : 0 < (w + 15) / 16 := by
    rcases Nat.eq_zero_or_pos ((w + 15) / 16) with h0 | h0
    · rw [h0, Nat.mul_zero] at hl
      omega
    · exact h0
  have := hm (q / ((w + 15) / 16)) (q % ((w + 15) / 16)) (by rw [Nat.div_lt_iff_lt_mul hX]; omega) (Nat.mod_lt _ hX)
  rwa [Nat.div_add_mod'] at this

theorem written_fit : Fit420 yTab uvTab ms := by
  intro b hb k ls hls l hl' p hp
  obtain ⟨q, hq, rfl⟩ := List.getElem_of_mem hb
  obtain ⟨b00, b01, b10, b11, bu, bv, em, q1, q2, q3, q4, q5, q6⟩ := mcu_at hl hm hq
  rw [List.getD_eq_getElem?_getD, List.getElem?_eq_getElem hq, Option.getD_some] at em
  rw [em] at hls
  match k, hls with
  | 0, hls =>
    obtain rfl : [b00, b01, b10, b11] = ls := Option.some.inj hls
    rw [if_pos rfl]
    simp only [List.mem_cons, List.not_mem_nil, or_false] at hl'
    rcases hl' with rfl | rfl | rfl | rfl
    · exact block_fits q1 hp
    · exact block_fits q2 hp
    · exact block_fits q3 hp
    · exact block_fits q4 hp
  | 1, hls =>
    obtain rfl : [bu] = ls := Option.some.inj hls
    rw [if_neg (by decide)]
    simp only [List.mem_cons, List.not_mem_nil, or_false] at hl'
    rw [hl']
    exact block_fits q5 hp
  | 2, hls =>
    obtain rfl : [bv] = ls := Option.some.inj hls
    rw [if_neg (by decide)]
    simp only [List.mem_cons, List.not_mem_nil, or_false] at hl'
    rw [hl']
    exact block_fits q6 hp
  | k + 3, hls => exact absurd hls (by simp)

theorem written_shape : Shape420 w h ms := by
  intro c hc r hr x hx
  have ha := side_pos c
  have hX : x / 8 / side c < (w + 15) / 16 := by
    rw [Nat.div_lt_iff_lt_mul (by omega), Nat.div_lt_iff_lt_mul (by omega)]
    exact hx
  have hY : r / 8 / side c < (h + 15) / 16 := by
    rw [Nat.div_lt_iff_lt_mul (by omega), Nat.div_lt_iff_lt_mul (by omega)]
    exact hr
  have hq : r / 8 / side c * ((w + 15) / 16) + x / 8 / side c < ms.length := by
    rw [hl]
    calc r / 8 / side c * ((w + 15) / 16) + x / 8 / side c < r / 8 / side c * ((w + 15) / 16) + (w + 15) / 16 := by omega
      _ = (r / 8 / side c + 1) * ((w + 15) / 16) := by ring
      _ ≤ (h + 15) / 16 * ((w + 15) / 16) := Nat.mul_le_mul_right _ hY
  obtain ⟨b00, b01, b10, b11, bu, bv, em, -⟩ := mcu_at hl hm hq
  rw [List.getD_eq_getElem?_getD, List.getElem?_eq_getElem hq, Option.getD_some] at em
  unfold blockAt
  rw [List.getElem?_eq_getElem hq, em, Option.bind_some]
  rcases three_cases hc with rfl | rfl | rfl
  · have m1 : r / 8 % 2 = 0 ∨ r / 8 % 2 = 1 := by omega
    have m2 : x / 8 % 2 = 0 ∨ x / 8 % 2 = 1 := by omega
    rw [show side 0 = 2 from rfl]
    rcases m1 with m1 | m1 <;> rcases m2 with m2 | m2 <;> rw [m1, m2] <;> exact ⟨_, rfl⟩
  · rw [show side 1 = 1 from rfl, Nat.mod_one, Nat.mod_one]
    exact ⟨_, rfl⟩
  · rw [show side 2 = 1 from rfl, Nat.mod_one, Nat.mod_one]
    exact ⟨_, rfl⟩

end

/-! ### Sizes -/

theorem sum_le_norm {f : ℕ → ℕ → ℝ} {B : ℝ} (hB : 0 ≤ B) (h : ∑ v ∈ Finset.range 8, ∑ u ∈ Finset.range 8, f v u ^ 2 ≤ B ^ 2) :
    ∑ v ∈ Finset.range 8, ∑ u ∈ Finset.range 8, |f v u| ≤ 8 * B := by
  rw [← Finset.sum_product'] at h ⊢
  have cs := sq_sum_le_card_mul_sum_sq (s := Finset.range 8 ×ˢ Finset.range 8) (f := fun p : ℕ × ℕ => |f p.1 p.2|)
  simp only [sq_abs, Finset.card_product, Finset.card_range] at cs
  refine abs_le_of_sq_le_sq' ?_ (by positivity) |>.2
  refine cs.trans ?_
  push_cast
  nlinarith [h]

theorem steps_half : ∀ c < 3, ∑ v ∈ Finset.range 8, ∑ u ∈ Finset.range 8, (8 * stepOf c (zigzag.idxOf (v, u)) + 1) ≤ 16 * 600 := by decide +kernel

/-- The coefficients of a block of samples of at most 128. -/
theorem coef_sum {f g : ℕ → ℕ → ℝ} (hf : ∀ y x, |f y x| ≤ 128) {c : ℕ} (hc : c < 3)
    (hg : ∀ v < 8, ∀ u < 8, |g v u - dct f v u| ≤ (stepOf c (zigzag.idxOf (v, u)) : ℝ) / 2 + 1 / 16) :
    ∑ v ∈ Finset.range 8, ∑ u ∈ Finset.range 8, |g v u| ≤ 8792 := by
  have e := idct_dist (fun _ _ => 0) f
  have z : ∀ y x, idct (fun _ _ => 0) y x = 0 := by
    intro y x
    unfold idct
    simp
  simp only [z, zero_sub, neg_sq] at e
  have h1 : ∑ v ∈ Finset.range 8, ∑ u ∈ Finset.range 8, dct f v u ^ 2 ≤ 1024 ^ 2 := by
    rw [← e]
    calc ∑ y ∈ Finset.range 8, ∑ x ∈ Finset.range 8, f y x ^ 2 ≤ ∑ y ∈ Finset.range 8, ∑ x ∈ Finset.range 8, (128 : ℝ) ^ 2 := by
          refine Finset.sum_le_sum fun y _ => Finset.sum_le_sum fun x _ => ?_
          rw [← sq_abs]
          exact pow_le_pow_left₀ (abs_nonneg _) (hf y x) 2
      _ = 1024 ^ 2 := by simp; norm_num
  have h2 := sum_le_norm (by norm_num) h1
  have h3 := steps_half c hc
  have h4 : ((∑ v ∈ Finset.range 8, ∑ u ∈ Finset.range 8, (8 * stepOf c (zigzag.idxOf (v, u)) + 1) : ℕ) : ℝ) ≤ ((16 * 600 : ℕ) : ℝ) := by exact_mod_cast h3
  rw [Nat.cast_sum] at h4
  simp only [Nat.cast_sum] at h4
  have h5 : ∑ v ∈ Finset.range 8, ∑ u ∈ Finset.range 8, |g v u| ≤ ∑ v ∈ Finset.range 8, ∑ u ∈ Finset.range 8, |dct f v u| +
      (∑ v ∈ Finset.range 8, ∑ u ∈ Finset.range 8, ((8 * stepOf c (zigzag.idxOf (v, u)) + 1 : ℕ) : ℝ)) * (1 / 16) := by
    simp only [Finset.sum_mul, ← Finset.sum_add_distrib]
    refine Finset.sum_le_sum fun v hv => Finset.sum_le_sum fun u hu => ?_
    rw [Finset.mem_range] at hv hu
    have := hg v hv u hu
    have t := abs_sub_abs_le_abs_sub (g v u) (dct f v u)
    push_cast
    linarith
  push_cast at h4 h5
  linarith

/-! ### Loading what was written -/

/-- Everything about a file that was written and is loaded again. -/
structure Loads (w h : ℕ) (data : List UInt8) (l : List UInt8) (d : Contents) (out : Cells UInt8) (P : ℕ → ℕ → ℕ → UInt8) : Prop where
  read : readJpeg l = some d
  frame : d.frame = ⟨h, w, [⟨1, 2, 2, 0⟩, ⟨2, 1, 1, 1⟩, ⟨3, 1, 1, 1⟩]⟩
  steps : ∀ c < 3, ∀ k < 64, d.step c k = stepOf c k ∧ 2 ≤ stepOf c k
  coefs : ∀ c < 3, ∀ i < (h + 15) / 16 * side c, ∀ j < (w + 15) / 16 * side c, ∀ k < 64,
    |(stepOf c k : ℝ) * d.coef c i j k - ideal w h data c i j k| ≤ stepOf c k / 2 + 1 / 16
  lines : LinesDone P w h out h
  samples : ∀ c < 3, ∀ r < (h + 15) / 16 * side c * 8, ∀ x < (w + 15) / 16 * side c * 8, |((P c r x).toNat : ℝ) - d.level c r x| ≤ sampleBound d c r x

theorem wrote_inj {m : CM (Nat × Option (List UInt8))} {a b : List UInt8} (h1 : m = .ok (1, some a)) (h2 : m = .ok (1, some b)) : a = b := by
  rw [h1] at h2
  injection h2 with h2
  injection h2 with _ h2
  injection h2

theorem written_frame (w h : ℕ) (ms : List (List (List (List Int)))) {c : ℕ} (hc : c < 3) :
    ((contents420 w h yTab uvTab ms).frame.comps.getD c ⟨0, 1, 1, 0⟩).hs = side c ∧ ((contents420 w h yTab uvTab ms).frame.comps.getD c ⟨0, 1, 1, 0⟩).vs = side c ∧
      (contents420 w h yTab uvTab ms).frame.down = (h + 15) / 16 ∧ (contents420 w h yTab uvTab ms).frame.across = (w + 15) / 16 := by
  refine ⟨?_, ?_, down420 w h, across420 w h⟩ <;> rcases three_cases hc with rfl | rfl | rfl <;> rfl

theorem yTab_first : 1 ≤ (yTab.getD 0 0).toNat ∧ 1 ≤ (uvTab.getD 0 0).toNat := by decide +kernel

theorem written_loads {w h : ℕ} {data : List UInt8} (hi : JpegFits w h data) :
    ∃ l d, stbi_write_jpg false true w h data = .ok (1, some l) ∧ ∀ {pm : PngMem} {mem : JpegMem} (_ : JpegMem.Enough mem) {feof : Ctx → Bool} {prog other : CM (Option Loaded)},
      ∃ out P, stbi_load_any pm mem feof prog other l = .ok (some ⟨w, h, 3, out⟩) ∧ Loads w h data l d out P := by
  obtain ⟨dat, bits, pad, ms, e, k2, k3, k4, h6, hl, hm⟩ := jpg_core_run hi.len hi.w_pos hi.h_pos (by have := hi.w_le; omega) (by have := hi.h_le; omega) hi.bytes
  have rd := jpg_read hi.w_pos hi.h_pos hi.w_le hi.h_le k2 k3 k4 h6
  obtain ⟨l', d', f1, f2, f3, f4, f5⟩ := jpeg_file hi
  have ew : stbi_write_jpg false true w h data = .ok (1, some (jpgHead w h yTab uvTab ++ (stuff dat ++ [0xFF, 0xD9]))) := by
    unfold stbi_write_jpg
    rw [if_pos rfl, e]
    rfl
  have el := wrote_inj ew f1
  rw [← el] at f2
  have ed : contents420 w h yTab uvTab ms = d' := Option.some.inj (rd.symm.trans f2)
  rw [← ed] at f3 f4 f5
  refine ⟨_, contents420 w h yTab uvTab ms, ew, fun {pm mem} hmem {feof prog other} => ?_⟩
  obtain ⟨out, P, o1, o2, o3⟩ := load_420 (pm := pm) (feof := feof) (prog := prog) (other := other) hmem hi.w_le hi.h_le hi.w_pos hi.h_pos hi.bytes yTab_len uvTab_len yTab_first.1 yTab_first.2
    (dat := dat) (tail := []) (ms := ms) (rest := pad) (by rw [k2, Nat.mul_comm]; exact h6) k3 (written_fit hl hm) (written_shape hl hm)
  refine ⟨out, P, o1, rd, f3, f4, ?_, o2, o3⟩
  intro c hc i hi' j hj k hk
  obtain ⟨s1, s2, s3, s4⟩ := written_frame w h ms hc
  have := f5 c hc i (by rw [s2, s3, Nat.mul_comm]; exact hi') j
    (by rw [s1, s4, Nat.mul_comm]; exact hj) k hk
  rw [(f4 c hc k hk).1] at this
  exact this

section
variable {w h : ℕ} {data l : List UInt8} {d : Contents} {out : Cells UInt8} {P : ℕ → ℕ → ℕ → UInt8} (L : Loads w h data l d out P)
include L

theorem Loads.transform {c : ℕ} (hc : c < 3) {r x : ℕ} (hr : r < (h + 15) / 16 * side c * 8) (hx : x < (w + 15) / 16 * side c * 8) {v u : ℕ} (hv : v < 8) (hu : u < 8) :
    |(d.step c (zigzag.idxOf (v, u)) : ℝ) * d.coef c (r / 8) (x / 8) (zigzag.idxOf (v, u)) -
      dct (fun y x' => (sample w h data c (8 * (r / 8) + y) (8 * (x / 8) + x') : ℝ)) v u| ≤ (stepOf c (zigzag.idxOf (v, u)) : ℝ) / 2 + 1 / 16 := by
  obtain ⟨k1, k2⟩ := zigzag_idx v hv u hu
  have := L.coefs c hc (r / 8) (by omega) (x / 8) (by omega) _ k1
  unfold ideal at this
  rw [k2] at this
  rw [(L.steps c hc _ k1).1]
  exact this

theorem Loads.near {c : ℕ} (hc : c < 3) {r x : ℕ} (hr : r < (h + 15) / 16 * side c * 8) (hx : x < (w + 15) / 16 * side c * 8) :
    |((P c r x).toNat : ℝ) - d.level c r x| ≤ 211 / 100 := by
  refine (L.samples c hc r hr x hx).trans ?_
  unfold sampleBound
  have := coef_sum (c := c) (f := fun y x' => (sample w h data c (8 * (r / 8) + y) (8 * (x / 8) + x') : ℝ)) (g := fun v u => (d.step c (zigzag.idxOf (v, u)) : ℝ) * d.coef c (r / 8) (x / 8) (zigzag.idxOf (v, u)))
    (fun y x' => sample_abs _ _ _ _ _ _) hc fun v hv u hu => L.transform hc hr hx hv hu
  linarith

end

theorem upByte_near (N F : ℕ → UInt8) (w x : ℕ) : |((upByte N F w x).toNat : ℝ) - between w (fun i => 3 / 4 * (N i).toNat + 1 / 4 * (F i).toNat) x| ≤ 1 / 2 := by
  have a1 := (N (x / 2)).toNat_lt
  have a2 := (F (x / 2)).toNat_lt
  have a3 := (N (beyond w x)).toNat_lt
  have a4 := (F (beyond w x)).toNat_lt
  have := byte_round (t := 3 * (3 * (N (x / 2)).toNat + (F (x / 2)).toNat) + (3 * (N (beyond w x)).toNat + (F (beyond w x)).toNat)) (n := 8) (by omega) (by omega)
  unfold upByte between
  refine le_of_eq_of_le ?_ this
  congr 2
  push_cast
  ring

theorem beyond_lt {n x : ℕ} (h : x < 2 * n) : beyond n x < n := by
  unfold beyond
  split <;> omega

/-- Interpolation of samples that are near `L`. -/
theorem half_near {p : ℕ → ℕ → UInt8} {L : ℕ → ℕ → ℝ} {m n : ℕ} {e : ℝ} (h : ∀ i < m, ∀ j < n, |((p i j).toNat : ℝ) - L i j| ≤ e) {y x : ℕ} (hy : y < 2 * m) (hx : x < 2 * n) :
    |((upByte (p (y / 2)) (p (beyond m y)) n x).toNat : ℝ) - between m (fun i => between n (fun j => L i j) x) y| ≤ 1 / 2 + e := by
  have h0 := upByte_near (p (y / 2)) (p (beyond m y)) n x
  have b1 := beyond_lt hy
  have b2 := beyond_lt hx
  have h1 := h (y / 2) (by omega) (x / 2) (by omega)
  have h2 := h (y / 2) (by omega) _ b2
  have h3 := h _ b1 (x / 2) (by omega)
  have h4 := h _ b1 _ b2
  unfold between at *
  dsimp only at *
  rw [abs_le] at *
  constructor <;> linarith [h0.1, h0.2, h1.1, h1.2, h2.1, h2.2, h3.1, h3.2, h4.1, h4.2]

theorem red_lip {a c a' c' e f : ℝ} (h1 : |a - a'| ≤ e) (h2 : |c - c'| ≤ f) : |redOf a c - redOf a' c'| ≤ e + 1402 / 1000 * f := by
  unfold redOf
  norm_num
  rw [abs_le] at *
  constructor <;> linarith [h1.1, h1.2, h2.1, h2.2]

theorem blue_lip {a c a' c' e f : ℝ} (h1 : |a - a'| ≤ e) (h2 : |c - c'| ≤ f) : |blueOf a c - blueOf a' c'| ≤ e + 1772 / 1000 * f := by
  unfold blueOf
  norm_num
  rw [abs_le] at *
  constructor <;> linarith [h1.1, h1.2, h2.1, h2.2]

theorem green_lip {a b c a' b' c' e f : ℝ} (h1 : |a - a'| ≤ e) (h2 : |b - b'| ≤ f) (h3 : |c - c'| ≤ f) : |greenOf a b c - greenOf a' b' c'| ≤ e + 1059 / 1000 * f := by
  unfold greenOf
  norm_num
  have h0 := (abs_nonneg _).trans h2
  rw [abs_le] at *
  constructor <;> linarith [h1.1, h1.2, h2.1, h2.2, h3.1, h3.2]

end FlatCV
