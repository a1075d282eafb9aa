/-
One output pixel of `fcv_resize` with bilinear interpolation.
-/
import Verif.Lemmas.ResizeArea

namespace FlatCV

open Model Finset

theorem lerp_at {n i : ℕ} (hi : i < n) {f : ℚ} (h0 : 0 ≤ f) (h1 : f ≤ 1) (v : ℕ → ℚ) :
    lerp n v (i + f) = v i * (1 - f) + v (min (i + 1) (n - 1)) * f := by
  have hi0 : (0 : ℚ) ≤ i := Nat.cast_nonneg _
  have hn : ((n - 1 : ℕ) : ℚ) = n - 1 := by rw [Nat.cast_sub (by omega)]; simp
  unfold lerp
  by_cases hl : i + 1 = n
  · have hq : (n : ℚ) - 1 = i := by rw [← hl]; push_cast; ring
    have hm : max 0 (min ((i : ℚ) + f) ((n : ℚ) - 1)) = i := by
      rw [hq, min_eq_right (by linarith), max_eq_right hi0]
    have hf : ⌊(i : ℚ)⌋.toNat = i := by rw [show ((i : ℕ) : ℚ) = ((i : ℤ) : ℚ) by simp, Int.floor_intCast]; simp
    simp only [hm, hf]
    rw [show min (i + 1) (n - 1) = i by omega]
    ring
  · have hq : (i : ℚ) + 1 ≤ n - 1 := by
      rw [← hn]
      have : i + 1 ≤ n - 1 := by omega
      exact_mod_cast this
    have hm : max 0 (min ((i : ℚ) + f) ((n : ℚ) - 1)) = i + f := by
      rw [min_eq_left (by linarith), max_eq_right (by linarith)]
    simp only [hm]
    rcases h1.eq_or_lt with rfl | h1
    · have hf : ⌊(i : ℚ) + 1⌋.toNat = i + 1 := by
        rw [show ((i : ℕ) : ℚ) + 1 = ((i + 1 : ℤ) : ℚ) by push_cast; rfl, Int.floor_intCast]
        omega
      rw [hf, show min (i + 1) (n - 1) = i + 1 by omega]
      push_cast
      ring
    · have hf : ⌊(i : ℚ) + f⌋.toNat = i := by
        have : ⌊(i : ℚ) + f⌋ = (i : ℤ) := by
          rw [Int.floor_eq_iff]
          push_cast
          constructor <;> linarith
        rw [this]
        simp
      rw [hf]
      ring

theorem lerp_neg {n : ℕ} (hn : 0 < n) {t : ℚ} (h : t ≤ 0) (v : ℕ → ℚ) : lerp n v t = v 0 := by
  have hq : (0 : ℚ) ≤ n - 1 := by
    have : (1 : ℚ) ≤ n := by exact_mod_cast hn
    linarith
  have hm : max 0 (min t ((n : ℚ) - 1)) = 0 := max_eq_left ((min_le_left _ _).trans h)
  unfold lerp
  simp only [hm]
  simp

/-- Neighbours and fraction of an output pixel along one axis. -/
structure Frac (n : ℕ) (r : ℚ) (o : ℕ) (i j : ℕ) (f t : ℚ) : Prop where
  run : resizeFrac n r o = .ok ((i : ℤ), (j : ℤ), f)
  lt_i : i < n
  lt_j : j < n
  f0 : 0 ≤ f
  f1 : f ≤ 1
  err : |t - posn r o| ≤ 8 * n / 2 ^ 53
  val : ∀ v, lerp n v t = v i * (1 - f) + v j * f

theorem rnd_one : Fmt.b64.rnd 1 = 1 := by
  have := rnd64_int (m := 1) (by norm_num)
  simpa using this

theorem frac_ok {n : ℕ} {r : ℚ} (A : Axis n r) {o : ℕ} (ho : o < outDim n r) :
    ∃ i j f t, Frac n r o i j f t := by
  obtain ⟨s, C⟩ := coord_ok A ho
  have hn := A.nq
  have hn' := A.nq'
  have nle := A.n_le
  have npos := A.n_pos
  have he := A.end_le ho
  have hlt : s < n := by
    have e := (abs_le.1 C.err).2
    have p : posn r o ≤ ((o : ℚ) + 1) / r - 1 / 2 := by
      unfold posn
      have : ((o : ℚ) + 1 / 2) / r ≤ ((o : ℚ) + 1) / r := div_le_div_of_nonneg_right (by norm_num) A.r_pos.le
      linarith
    nlinarith
  have hfl : castI32 ((⌊s⌋ : ℤ) : ℚ) = .ok ⌊s⌋ := floor_bound (by linarith [C.ge]) (by linarith)
  have hi32n : i32OfU32 n = (n : ℤ) := i32OfU32_eq (by omega)
  have hi32m : i32OfU32 (u32sub n 1) = ((n - 1 : ℕ) : ℤ) := by
    rw [u32sub_eq (by omega) (by omega), i32OfU32_eq (by omega)]
  have rerr := (abs_le.1 C.err)
  have n53 : (n : ℚ) / 2 ^ 53 * 4 = 4 * n / 2 ^ 53 := by ring
  by_cases hneg : s < 0
  · have f1 : ⌊s⌋ = -1 := by
      rw [Int.floor_eq_iff]
      push_cast
      exact ⟨by linarith [C.ge], by linarith⟩
    have e1 : f64 (s - ((0 : ℤ) : ℚ)) = .ok (Fmt.b64.rnd s) := by
      rw [Int.cast_zero, sub_zero]
      exact f64_ok (by rw [abs_le]; constructor <;> linarith [C.ge])
    have e2 : Fmt.b64.rnd s ≤ 0 := rnd_le _ hneg.le (rnd_zero _)
    refine ⟨0, 0, 0, s, ?_, npos, npos, le_refl _, by norm_num, ?_, fun v => ?_⟩
    · unfold resizeFrac
      rw [C.run, ok_bind, hfl, ok_bind, f1, i32_ok ⟨by omega, by omega⟩, ok_bind, if_pos (by omega), hi32n, hi32m,
        if_neg (by omega)]
      dsimp only
      rw [e1, ok_bind]
      have : (if Fmt.b64.rnd s < 0 then (0 : ℚ) else Fmt.b64.rnd s) = 0 := by
        split_ifs <;> linarith
      rw [this, if_neg (by norm_num)]
      rfl
    · refine C.err.trans ?_
      have : (0 : ℚ) ≤ n / 2 ^ 53 := by positivity
      linarith
    · rw [lerp_neg npos hneg.le]
      ring
  · push Not at hneg
    have fl0 : 0 ≤ ⌊s⌋ := Int.floor_nonneg.2 hneg
    have fln : ⌊s⌋ < n := Int.floor_lt.2 (by push_cast; exact hlt)
    have g1 : 0 ≤ s - ((⌊s⌋ : ℤ) : ℚ) := by linarith [Int.floor_le s]
    have g2 : s - ((⌊s⌋ : ℤ) : ℚ) ≤ 1 := by linarith [Int.lt_floor_add_one s]
    have gabs : |s - ((⌊s⌋ : ℤ) : ℚ)| ≤ 1 := by rw [abs_of_nonneg g1]; exact g2
    have e1 : f64 (s - ((⌊s⌋ : ℤ) : ℚ)) = .ok (Fmt.b64.rnd (s - ((⌊s⌋ : ℤ) : ℚ))) :=
      f64_ok (gabs.trans (by norm_num))
    have err := abs_le.1 (rnd64_err_le gabs (le_refl 1))
    have d0 := rnd_nonneg Fmt.b64 g1
    have d1 := rnd_le Fmt.b64 g2 rnd_one
    generalize Fmt.b64.rnd (s - ((⌊s⌋ : ℤ) : ℚ)) = f at *
    have hcast : ((⌊s⌋.toNat : ℕ) : ℤ) = ⌊s⌋ := Int.toNat_of_nonneg fl0
    have hcastq : ((⌊s⌋.toNat : ℕ) : ℚ) = ((⌊s⌋ : ℤ) : ℚ) := by exact_mod_cast congrArg (Int.cast (R := ℚ)) hcast
    refine ⟨⌊s⌋.toNat, min (⌊s⌋.toNat + 1) (n - 1), f, ⌊s⌋.toNat + f, ?_, by omega, by omega, d0, d1, ?_, fun v => ?_⟩
    · unfold resizeFrac
      rw [C.run, ok_bind, hfl, ok_bind, i32_ok ⟨by omega, by omega⟩, ok_bind, if_neg (by omega), hi32n, hi32m]
      dsimp only
      rw [e1, ok_bind, if_neg (not_lt.2 d0), if_neg (show ¬ f > 1 from not_lt.2 d1)]
      have : (if ⌊s⌋ + 1 ≥ (n : ℤ) then ((n - 1 : ℕ) : ℤ) else ⌊s⌋ + 1) = ((min (⌊s⌋.toNat + 1) (n - 1) : ℕ) : ℤ) := by
        split_ifs <;> omega
      rw [this, hcast]
      rfl
    · rw [hcastq, abs_le]
      have k1 := err.1
      have k2 := err.2
      constructor <;> linarith [rerr.1, rerr.2]
    · exact lerp_at (by omega) d0 d1 v

theorem bilin_term {p : ℕ} (hp : p ≤ 255) {m M y Y : ℚ} (m0 : 0 ≤ m) (m1 : m ≤ 1) (M0 : 0 ≤ M) (M1 : M ≤ 1)
    (y0 : 0 ≤ y) (y1 : y ≤ 1) (hm : |m - M| ≤ 1 / 2 ^ 52) (hy : |y - Y| ≤ 1 / 2 ^ 52) :
    ∃ q t, f64 ((p : ℚ) * m) = .ok q ∧ f64 (q * y) = .ok t ∧ 0 ≤ t ∧ t ≤ 255 ∧ |t - p * M * Y| ≤ 1 / 2 ^ 40 := by
  have hp' : (p : ℚ) ≤ 255 := by exact_mod_cast hp
  have hp0 : (0 : ℚ) ≤ p := Nat.cast_nonneg _
  have r255 : Fmt.b64.rnd 255 = 255 := by
    have := rnd64_int (m := 255) (by norm_num)
    simpa using this
  have a0 : 0 ≤ (p : ℚ) * m := mul_nonneg hp0 m0
  have a1 : (p : ℚ) * m ≤ 255 := by nlinarith
  have aabs : |(p : ℚ) * m| ≤ 255 := by rw [abs_of_nonneg a0]; exact a1
  have q0 := rnd_nonneg Fmt.b64 a0
  have q1 := rnd_le Fmt.b64 a1 r255
  have err1 := rnd64_err_le aabs (by norm_num)
  have e1 := f64_ok (aabs.trans (by norm_num))
  generalize Fmt.b64.rnd ((p : ℚ) * m) = q at *
  have b0 : 0 ≤ q * y := mul_nonneg q0 y0
  have b1 : q * y ≤ 255 := by nlinarith
  have babs : |q * y| ≤ 255 := by rw [abs_of_nonneg b0]; exact b1
  have t0 := rnd_nonneg Fmt.b64 b0
  have t1 := rnd_le Fmt.b64 b1 r255
  have err2 := rnd64_err_le babs (by norm_num)
  have e2 := f64_ok (babs.trans (by norm_num))
  generalize Fmt.b64.rnd (q * y) = t at *
  refine ⟨q, t, e1, e2, t0, t1, ?_⟩
  have pm : |(p : ℚ) * m - p * M| ≤ 255 / 2 ^ 52 := by
    rw [← mul_sub, abs_mul, abs_of_nonneg hp0]
    calc (p : ℚ) * |m - M| ≤ 255 * (1 / 2 ^ 52) := mul_le_mul hp' hm (abs_nonneg _) (by norm_num)
      _ = _ := by ring
  have qM : |q - p * M| ≤ 600 / 2 ^ 52 := by
    rw [abs_le] at *
    norm_num at err1 pm ⊢
    constructor <;> linarith [err1.1, err1.2, pm.1, pm.2]
  have h1 : |(q - p * M) * y| ≤ 600 / 2 ^ 52 := by
    rw [abs_mul, abs_of_nonneg y0]
    calc |q - p * M| * y ≤ 600 / 2 ^ 52 * 1 := mul_le_mul qM y1 y0 (by positivity)
      _ = _ := mul_one _
  have pM0 : 0 ≤ (p : ℚ) * M := mul_nonneg hp0 M0
  have pM1 : (p : ℚ) * M ≤ 255 := by nlinarith
  have h2 : |(p : ℚ) * M * (y - Y)| ≤ 255 / 2 ^ 52 := by
    rw [abs_mul, abs_of_nonneg pM0]
    calc (p : ℚ) * M * |y - Y| ≤ 255 * (1 / 2 ^ 52) := mul_le_mul pM1 hy (abs_nonneg _) (by norm_num)
      _ = _ := by ring
  have e : t - p * M * Y = (t - q * y) + (q - p * M) * y + p * M * (y - Y) := by ring
  rw [e]
  rw [abs_le] at *
  norm_num at err2 h1 h2 ⊢
  constructor <;> linarith [err2.1, err2.2, h1.1, h1.2, h2.1, h2.2]

theorem one_sub_rnd {f : ℚ} (f0 : 0 ≤ f) (f1 : f ≤ 1) : ∃ m, f64 (1 - f) = .ok m ∧ 0 ≤ m ∧ m ≤ 1 ∧
    |m - (1 - f)| ≤ 1 / 2 ^ 52 := by
  have habs : |1 - f| ≤ 1 := by rw [abs_of_nonneg (by linarith)]; linarith
  refine ⟨_, f64_ok (habs.trans (by norm_num)), rnd_nonneg _ (by linarith), rnd_le _ (by linarith) rnd_one, ?_⟩
  refine (rnd64_err_le habs (le_refl 1)).trans (by norm_num)

theorem sum_round {x y X Y ε δ : ℚ} (x0 : 0 ≤ x) (y0 : 0 ≤ y) (hx : |x - X| ≤ ε) (hy : |y - Y| ≤ δ)
    (hb : x + y ≤ 1024) : ∃ z, f64 (x + y) = .ok z ∧ 0 ≤ z ∧ |z - (X + Y)| ≤ ε + δ + 1 / 2 ^ 42 := by
  have habs : |x + y| ≤ 1024 := by rw [abs_of_nonneg (by linarith)]; exact hb
  refine ⟨_, f64_ok (habs.trans (by norm_num)), rnd_nonneg _ (by linarith), ?_⟩
  have err := rnd64_err_le habs (by norm_num)
  generalize Fmt.b64.rnd (x + y) = z at *
  rw [abs_le] at *
  norm_num at err ⊢
  constructor <;> linarith [err.1, err.2, hx.1, hx.2, hy.1, hy.2]

theorem bilinearByte_ok {w h : ℕ} {d : List UInt8} (hd : d.length = w * h * 4) (hsz : w * h * 4 < 4294967296)
    {x0 x1 y0 y1 : ℕ} (hx0 : x0 < w) (hx1 : x1 < w) (hy0 : y0 < h) (hy1 : y1 < h) {dx dy : ℚ} (dx0 : 0 ≤ dx)
    (dx1 : dx ≤ 1) (dy0 : 0 ≤ dy) (dy1 : dy ≤ 1) {c : ℕ} (hc : c < 4) :
    ∃ b, bilinearByte w d x0 x1 y0 y1 dx dy c = .ok b ∧
      RoundsTo (((px w 4 d x0 y0 c).toNat * (1 - dx) + (px w 4 d x1 y0 c).toNat * dx) * (1 - dy) +
        ((px w 4 d x0 y1 c).toNat * (1 - dx) + (px w 4 d x1 y1 c).toNat * dx) * dy) b := by
  have hread : ∀ x, x < w → ∀ y, y < h →
      rdIn d (u32 (u32 (u32 (u32OfInt (y : ℤ) * w + u32OfInt (x : ℤ)) * 4) + c)) = .ok (px w 4 d x y c) := by
    intro x hx y hy
    have hlt := idx3_lt (ch := 4) hx hy hc
    have hid := idx_lt hx hy
    have hwl : w ≤ w * h := Nat.le_mul_of_pos_right w (by omega)
    have hhl : h ≤ w * h := Nat.le_mul_of_pos_left h (by omega)
    have u1 : u32OfInt ((y : ℕ) : ℤ) = y := by rw [u32OfInt_eq (by omega) (by omega)]; simp
    have u2 : u32OfInt ((x : ℕ) : ℤ) = x := by rw [u32OfInt_eq (by omega) (by omega)]; simp
    rw [u1, u2, u32_eq (n := y * w + x) (by omega), u32_eq (n := (y * w + x) * 4) (by omega),
      u32_eq (n := (y * w + x) * 4 + c) (by omega)]
    exact rdIn_ok (getElem?_px hd hx hy hc)
  have hb : ∀ v : UInt8, v.toNat ≤ 255 := fun v => by have := v.toNat_lt; omega
  obtain ⟨mx, emx, mx0, mx1, hmx⟩ := one_sub_rnd dx0 dx1
  obtain ⟨my, emy, my0, my1, hmy⟩ := one_sub_rnd dy0 dy1
  have z52 : ∀ f : ℚ, |f - f| ≤ 1 / 2 ^ 52 := fun f => by rw [sub_self, abs_zero]; positivity
  obtain ⟨q00, t00, a00, b00, n00, l00, r00⟩ := bilin_term (hb (px w 4 d x0 y0 c)) mx0 mx1 (M := 1 - dx) (by linarith)
    (by linarith) my0 my1 hmx hmy
  obtain ⟨q01, t01, a01, b01, n01, l01, r01⟩ := bilin_term (hb (px w 4 d x1 y0 c)) dx0 dx1 dx0 dx1 my0 my1 (z52 dx) hmy
  obtain ⟨q10, t10, a10, b10, n10, l10, r10⟩ := bilin_term (hb (px w 4 d x0 y1 c)) mx0 mx1 (M := 1 - dx) (by linarith)
    (by linarith) dy0 dy1 hmx (z52 dy)
  obtain ⟨q11, t11, a11, b11, n11, l11, r11⟩ := bilin_term (hb (px w 4 d x1 y1 c)) dx0 dx1 dx0 dx1 dy0 dy1 (z52 dx) (z52 dy)
  have cv : ∀ v : UInt8, (0 : ℚ) ≤ v.toNat ∧ (v.toNat : ℚ) ≤ 255 :=
    fun v => ⟨Nat.cast_nonneg _, by exact_mod_cast hb v⟩
  have mean : ∀ (p q : UInt8) (f : ℚ), 0 ≤ f → f ≤ 1 → 0 ≤ (p.toNat : ℚ) * (1 - f) + q.toNat * f ∧
      (p.toNat : ℚ) * (1 - f) + q.toNat * f ≤ 255 := by
    intro p q f f0 f1
    have h1 := cv p
    have h2 := cv q
    constructor <;> nlinarith
  have m1 := mean (px w 4 d x0 y0 c) (px w 4 d x1 y0 c) dx dx0 dx1
  have m2 := mean (px w 4 d x0 y1 c) (px w 4 d x1 y1 c) dx dx0 dx1
  obtain ⟨s1, es1, ns1, rs1⟩ := sum_round n00 n01 r00 r01 (by linarith)
  have bs1 : s1 ≤ 512 := by
    have h1 : ∀ (p : UInt8) (a b : ℚ), 0 ≤ a → a ≤ 1 → 0 ≤ b → b ≤ 1 → (p.toNat : ℚ) * a * b ≤ 255 := by
      intro p a b a0 a1 b0 b1
      have hp := cv p
      have : (p.toNat : ℚ) * a ≤ 255 := by nlinarith
      have h0 : 0 ≤ (p.toNat : ℚ) * a := mul_nonneg hp.1 a0
      nlinarith
    have h2 := h1 (px w 4 d x0 y0 c) (1 - dx) (1 - dy) (by linarith) (by linarith) (by linarith) (by linarith)
    have h3 := h1 (px w 4 d x1 y0 c) dx (1 - dy) (by linarith) (by linarith) (by linarith) (by linarith)
    have := (abs_le.1 rs1).2
    norm_num at this
    linarith
  obtain ⟨s2, es2, ns2, rs2⟩ := sum_round ns1 n10 rs1 r10 (by linarith)
  set D00 : ℚ := ((px w 4 d x0 y0 c).toNat : ℚ)
  set D01 : ℚ := ((px w 4 d x1 y0 c).toNat : ℚ)
  set D10 : ℚ := ((px w 4 d x0 y1 c).toNat : ℚ)
  set D11 : ℚ := ((px w 4 d x1 y1 c).toNat : ℚ)
  have eM : D00 * (1 - dx) * (1 - dy) + D01 * dx * (1 - dy) + D10 * (1 - dx) * dy + D11 * dx * dy =
      (D00 * (1 - dx) + D01 * dx) * (1 - dy) + (D10 * (1 - dx) + D11 * dx) * dy := by ring
  have M0 : 0 ≤ (D00 * (1 - dx) + D01 * dx) * (1 - dy) + (D10 * (1 - dx) + D11 * dx) * dy :=
    add_nonneg (mul_nonneg m1.1 (by linarith)) (mul_nonneg m2.1 dy0)
  have M255 : (D00 * (1 - dx) + D01 * dx) * (1 - dy) + (D10 * (1 - dx) + D11 * dx) * dy ≤ 255 := by
    have h1 := mul_le_mul_of_nonneg_right m1.2 (show 0 ≤ 1 - dy by linarith)
    have h2 := mul_le_mul_of_nonneg_right m2.2 dy0
    linarith
  have P11 : 0 ≤ D11 * dx * dy := mul_nonneg (mul_nonneg (cv _).1 dx0) dy0
  have bs2 : s2 ≤ 512 := by
    have := (abs_le.1 rs2).2
    norm_num at this
    linarith
  obtain ⟨s3, es3, ns3, rs3⟩ := sum_round ns2 n11 rs2 r11 (by linarith)
  rw [eM] at rs3
  set M : ℚ := (D00 * (1 - dx) + D01 * dx) * (1 - dy) + (D10 * (1 - dx) + D11 * dx) * dy
  have bs3 : s3 ≤ 512 := by
    have := (abs_le.1 rs3).2
    norm_num at this
    linarith
  obtain ⟨s4, es4, ns4, rs4⟩ := sum_round ns3 (show (0 : ℚ) ≤ 1 / 2 by norm_num) rs3
    (show |(1 / 2 : ℚ) - 1 / 2| ≤ 0 by norm_num) (by linarith)
  have r4 := abs_le.1 rs4
  have hs1 : s4 ≤ M + 1 / 2 + 1 / 2048 := by have := r4.2; norm_num at this ⊢; linarith
  have hs2 : M + 1 / 2 - 1 / 2048 ≤ s4 := by have := r4.1; norm_num at this ⊢; linarith
  have e3 : castU8 s4 = .ok (u8OfInt ⌊s4⌋) := castU8_ok ns4 (by linarith)
  refine ⟨u8OfInt ⌊s4⌋, ?_, ?_⟩
  · unfold bilinearByte
    dsimp only
    rw [hread x0 hx0 y0 hy0, hread x1 hx1 y0 hy0, hread x0 hx0 y1 hy1, hread x1 hx1 y1 hy1, emx, emy]
    simp only [ok_bind]
    rw [a00, a01, a10, a11]
    simp only [ok_bind]
    rw [b00, b01, b10, b11]
    simp only [ok_bind]
    rw [es1, ok_bind, es2, ok_bind, es3, ok_bind, es4, ok_bind]
    exact e3
  · have f0 : 0 ≤ ⌊s4⌋ := Int.floor_nonneg.2 ns4
    have f1 : ⌊s4⌋ < 256 := Int.floor_lt.2 (by push_cast; linarith)
    have : (((u8OfInt ⌊s4⌋).toNat : ℕ) : ℚ) = ((⌊s4⌋ : ℤ) : ℚ) := by
      have : ((u8OfInt ⌊s4⌋).toNat : ℤ) = ⌊s4⌋ := by
        unfold u8OfInt
        simp
        omega
      exact_mod_cast congrArg (Int.cast (R := ℚ)) this
    unfold RoundsTo
    rw [this, abs_le]
    have g1 := Int.floor_le s4
    have g2 := Int.lt_floor_add_one s4
    constructor <;> linarith

/-- An output pixel with bilinear interpolation. -/
theorem bilinearPixel_ok {w h : ℕ} {d : List UInt8} (hd : d.length = w * h * 4) (hsz : w * h * 4 < 4294967296)
    {rx ry : ℚ} {ox oy : ℕ} {x0 x1 y0 y1 : ℕ} {dx dy tx ty : ℚ} (Fx : Frac w rx ox x0 x1 dx tx)
    (Fy : Frac h ry oy y0 y1 dy ty) :
    ∃ r g b : UInt8, bilinearPixel w h rx ry d ox oy = .ok (r, g, b) ∧
      ∀ q < 3, RoundsTo (lerp2 w h (fun x y => ((px w 4 d x y q).toNat : ℚ)) tx ty)
        (if q = 0 then r else if q = 1 then g else b) := by
  have key := fun c hc => bilinearByte_ok hd hsz Fx.lt_i Fx.lt_j Fy.lt_i Fy.lt_j Fx.f0 Fx.f1 Fy.f0 Fy.f1 (c := c) hc
  have ev : ∀ q, lerp2 w h (fun x y => ((px w 4 d x y q).toNat : ℚ)) tx ty =
      ((px w 4 d x0 y0 q).toNat * (1 - dx) + (px w 4 d x1 y0 q).toNat * dx) * (1 - dy) +
        ((px w 4 d x0 y1 q).toNat * (1 - dx) + (px w 4 d x1 y1 q).toNat * dx) * dy := by
    intro q
    unfold lerp2
    rw [Fy.val, Fx.val, Fx.val]
  simp only [ev]
  obtain ⟨r, er, hr⟩ := key 0 (by omega)
  obtain ⟨g, eg, hg⟩ := key 1 (by omega)
  obtain ⟨b, eb, hb⟩ := key 2 (by omega)
  refine ⟨r, g, b, ?_, fun q hq => ?_⟩
  · unfold bilinearPixel
    rw [Fx.run, Fy.run]
    simp only [ok_bind]
    rw [er, eg, eb]
    rfl
  · rcases (show q = 0 ∨ q = 1 ∨ q = 2 by omega) with rfl | rfl | rfl
    · simpa using hr
    · simpa using hg
    · simpa using hb

end FlatCV
