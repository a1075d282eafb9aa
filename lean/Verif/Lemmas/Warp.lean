/-
Applying a matrix to an image.
-/
import Verif.Lemmas.ResizeBilin
import Verif.Spec.Warp

namespace FlatCV
open Model Spec

theorem pixIdx_ok {w h x y : ℕ} (hx : x < w) (hy : y < h) (hs : w * h ≤ 536870912) :
    pixIdx (w : ℤ) (x : ℤ) (y : ℤ) = .ok (((y * w + x) * 4 : ℕ) : ℤ) := by
  have hlt := idx_lt hx hy
  unfold pixIdx
  have e : (y : ℤ) * (w : ℤ) = ((y * w : ℕ) : ℤ) := by push_cast; rfl
  rw [e, i32_ok ⟨by omega, by omega⟩, ok_bind, i32_ok ⟨by omega, by omega⟩, ok_bind, i32_ok ⟨by omega, by omega⟩]
  congr 1

theorem rdInZ_px4 {w h x y c : ℕ} {d : List UInt8} (hd : d.length = w * h * 4) (hx : x < w) (hy : y < h) (hc : c < 4) :
    rdInZ d (((y * w + x) * 4 : ℕ) + (c : ℤ)) = .ok (px w 4 d x y c) := by
  unfold rdInZ
  rw [if_pos (by omega), show ((((y * w + x) * 4 : ℕ) : ℤ) + (c : ℤ)).toNat = (y * w + x) * 4 + c by omega]
  exact rdIn_ok (getElem?_px hd hx hy hc)

theorem warpByte_ok {w h : ℕ} {d : List UInt8} (hd : d.length = w * h * 4)
    {x0 x1 y0 y1 : ℕ} (hx0 : x0 < w) (hx1 : x1 < w) (hy0 : y0 < h) (hy1 : y1 < h) {dx dy : ℚ} (dx0 : 0 ≤ dx)
    (dx1 : dx ≤ 1) (dy0 : 0 ≤ dy) (dy1 : dy ≤ 1) {c : ℕ} (hc : c < 4) :
    ∃ b, warpByte d (((y0 * w + x0) * 4 : ℕ) : ℤ) (((y0 * w + x1) * 4 : ℕ) : ℤ) (((y1 * w + x0) * 4 : ℕ) : ℤ)
        (((y1 * w + x1) * 4 : ℕ) : ℤ) dx dy c = .ok b ∧
      Cuts (((px w 4 d x0 y0 c).toNat * (1 - dx) + (px w 4 d x1 y0 c).toNat * dx) * (1 - dy) +
        ((px w 4 d x0 y1 c).toNat * (1 - dx) + (px w 4 d x1 y1 c).toNat * dx) * dy) b := by
  have hb : ∀ v : UInt8, v.toNat ≤ 255 := fun v => by have := v.toNat_lt; omega
  obtain ⟨mx, emx, mx0, mx1, hmx⟩ := one_sub_rnd dx0 dx1
  obtain ⟨my, emy, my0, my1, hmy⟩ := one_sub_rnd dy0 dy1
  have z52 : ∀ f : ℚ, |f - f| ≤ 1 / 2 ^ 52 := fun f => by rw [sub_self, abs_zero]; positivity
  obtain ⟨q00, t00, a00, b00, n00, l00, r00⟩ := bilin_term (hb (px w 4 d x0 y0 c)) mx0 mx1 (M := 1 - dx) (by linarith)
    (by linarith) my0 my1 hmx hmy
  obtain ⟨q01, t01, a01, b01, n01, l01, r01⟩ := bilin_term (hb (px w 4 d x1 y0 c)) dx0 dx1 dx0 dx1 my0 my1 (z52 dx) hmy
  obtain ⟨q10, t10, a10, b10, n10, l10, r10⟩ := bilin_term (hb (px w 4 d x0 y1 c)) mx0 mx1 (M := 1 - dx) (by linarith)
    (by linarith) dy0 dy1 hmx (z52 dy)
  obtain ⟨q11, t11, a11, b11, n11, l11, r11⟩ := bilin_term (hb (px w 4 d x1 y1 c)) dx0 dx1 dx0 dx1 dy0 dy1 (z52 dx) (z52 dy)
  have cv : ∀ v : UInt8, (0 : ℚ) ≤ v.toNat ∧ (v.toNat : ℚ) ≤ 255 :=
    fun v => ⟨Nat.cast_nonneg _, by exact_mod_cast hb v⟩
  have mean : ∀ (p q : UInt8) (f : ℚ), 0 ≤ f → f ≤ 1 → 0 ≤ (p.toNat : ℚ) * (1 - f) + q.toNat * f ∧
      (p.toNat : ℚ) * (1 - f) + q.toNat * f ≤ 255 := by
    intro p q f f0 f1
    have h1 := cv p
    have h2 := cv q
    constructor <;> nlinarith
  have m1 := mean (px w 4 d x0 y0 c) (px w 4 d x1 y0 c) dx dx0 dx1
  have m2 := mean (px w 4 d x0 y1 c) (px w 4 d x1 y1 c) dx dx0 dx1
  obtain ⟨s1, es1, ns1, rs1⟩ := sum_round n00 n01 r00 r01 (by linarith)
  have bs1 : s1 ≤ 512 := by
    have h1 : ∀ (p : UInt8) (a b : ℚ), 0 ≤ a → a ≤ 1 → 0 ≤ b → b ≤ 1 → (p.toNat : ℚ) * a * b ≤ 255 := by
      intro p a b a0 a1 b0 b1
      have hp := cv p
      have : (p.toNat : ℚ) * a ≤ 255 := by nlinarith
      have h0 : 0 ≤ (p.toNat : ℚ) * a := mul_nonneg hp.1 a0
      nlinarith
    have h2 := h1 (px w 4 d x0 y0 c) (1 - dx) (1 - dy) (by linarith) (by linarith) (by linarith) (by linarith)
    have h3 := h1 (px w 4 d x1 y0 c) dx (1 - dy) (by linarith) (by linarith) (by linarith) (by linarith)
    have := (abs_le.1 rs1).2
    norm_num at this
    linarith
  obtain ⟨s2, es2, ns2, rs2⟩ := sum_round ns1 n10 rs1 r10 (by linarith)
  set D00 : ℚ := ((px w 4 d x0 y0 c).toNat : ℚ)
  set D01 : ℚ := ((px w 4 d x1 y0 c).toNat : ℚ)
  set D10 : ℚ := ((px w 4 d x0 y1 c).toNat : ℚ)
  set D11 : ℚ := ((px w 4 d x1 y1 c).toNat : ℚ)
  have eM : D00 * (1 - dx) * (1 - dy) + D01 * dx * (1 - dy) + D10 * (1 - dx) * dy + D11 * dx * dy =
      (D00 * (1 - dx) + D01 * dx) * (1 - dy) + (D10 * (1 - dx) + D11 * dx) * dy := by ring
  have M0 : 0 ≤ (D00 * (1 - dx) + D01 * dx) * (1 - dy) + (D10 * (1 - dx) + D11 * dx) * dy :=
    add_nonneg (mul_nonneg m1.1 (by linarith)) (mul_nonneg m2.1 dy0)
  have M255 : (D00 * (1 - dx) + D01 * dx) * (1 - dy) + (D10 * (1 - dx) + D11 * dx) * dy ≤ 255 := by
    have h1 := mul_le_mul_of_nonneg_right m1.2 (show 0 ≤ 1 - dy by linarith)
    have h2 := mul_le_mul_of_nonneg_right m2.2 dy0
    linarith
  have P11 : 0 ≤ D11 * dx * dy := mul_nonneg (mul_nonneg (cv _).1 dx0) dy0
  have bs2 : s2 ≤ 512 := by
    have := (abs_le.1 rs2).2
    norm_num at this
    linarith
  obtain ⟨s3, es3, ns3, rs3⟩ := sum_round ns2 n11 rs2 r11 (by linarith)
  rw [eM] at rs3
  set M : ℚ := (D00 * (1 - dx) + D01 * dx) * (1 - dy) + (D10 * (1 - dx) + D11 * dx) * dy
  have r4 := abs_le.1 rs3
  have hs1 : s3 ≤ M + 1 / 1024 := by have := r4.2; norm_num at this ⊢; linarith
  have hs2 : M - 1 / 1024 ≤ s3 := by have := r4.1; norm_num at this ⊢; linarith
  have e3 : castU8 s3 = .ok (u8OfInt ⌊s3⌋) := castU8_ok ns3 (by linarith)
  refine ⟨u8OfInt ⌊s3⌋, ?_, ?_⟩
  · unfold warpByte
    rw [emx, ok_bind, emy, ok_bind, rdInZ_px4 hd hx0 hy0 hc, ok_bind, rdInZ_px4 hd hx1 hy0 hc, ok_bind,
      rdInZ_px4 hd hx0 hy1 hc, ok_bind, rdInZ_px4 hd hx1 hy1 hc, ok_bind]
    rw [a00, ok_bind, b00, ok_bind, a01, ok_bind, b01, ok_bind, a10, ok_bind, b10, ok_bind, a11, ok_bind, b11, ok_bind]
    rw [es1, ok_bind, es2, ok_bind, es3, ok_bind]
    exact e3
  · have f0 : 0 ≤ ⌊s3⌋ := Int.floor_nonneg.2 ns3
    have f1 : ⌊s3⌋ < 256 := Int.floor_lt.2 (by push_cast; linarith)
    have : (((u8OfInt ⌊s3⌋).toNat : ℕ) : ℚ) = ((⌊s3⌋ : ℤ) : ℚ) := by
      have : ((u8OfInt ⌊s3⌋).toNat : ℤ) = ⌊s3⌋ := by
        unfold u8OfInt
        simp
        omega
      exact_mod_cast congrArg (Int.cast (R := ℚ)) this
    unfold Cuts
    rw [this]
    have g1 := Int.floor_le s3
    have g2 := Int.lt_floor_add_one s3
    constructor <;> linarith

/-- At an integer point the sample is copied. -/
theorem warpByte_exact {w h : ℕ} {d : List UInt8} (hd : d.length = w * h * 4)
    {x0 x1 y0 y1 : ℕ} (hx0 : x0 < w) (hx1 : x1 < w) (hy0 : y0 < h) (hy1 : y1 < h) {c : ℕ} (hc : c < 4) :
    warpByte d (((y0 * w + x0) * 4 : ℕ) : ℤ) (((y0 * w + x1) * 4 : ℕ) : ℤ) (((y1 * w + x0) * 4 : ℕ) : ℤ)
        (((y1 * w + x1) * 4 : ℕ) : ℤ) 0 0 c = .ok (px w 4 d x0 y0 c) := by
  have hb : ∀ v : UInt8, (v.toNat : ℚ) ≤ 255 := fun v => by
    have h := v.toNat_lt
    have : v.toNat ≤ 255 := by omega
    exact_mod_cast this
  have one : f64 1 = .ok 1 := by rw [f64_ok (by norm_num), rnd_one]
  have zero : f64 0 = .ok 0 := by rw [f64_ok (by norm_num), rnd_zero]
  have val : ∀ v : UInt8, f64 (v.toNat : ℚ) = .ok (v.toNat : ℚ) := by
    intro v
    rw [f64_ok (by rw [abs_of_nonneg (Nat.cast_nonneg _)]; linarith [hb v])]
    congr 1
    have h := v.toNat_lt
    have := rnd64_int (m := (v.toNat : ℤ)) (by rw [abs_of_nonneg (by omega)]; omega)
    simpa using this
  have cast : ∀ v : UInt8, castU8 (v.toNat : ℚ) = .ok v := by
    intro v
    rw [castU8_ok (Nat.cast_nonneg _) (by linarith [hb v])]
    congr 1
    have : ⌊(v.toNat : ℚ)⌋ = (v.toNat : ℤ) := by
      rw [show ((v.toNat : ℕ) : ℚ) = ((v.toNat : ℤ) : ℚ) by simp, Int.floor_intCast]
    rw [this]
    unfold u8OfInt
    have h := v.toNat_lt
    apply UInt8.toNat_inj.1
    simp
    omega
  unfold warpByte
  rw [sub_zero, one, ok_bind, ok_bind, rdInZ_px4 hd hx0 hy0 hc, ok_bind, rdInZ_px4 hd hx1 hy0 hc, ok_bind,
    rdInZ_px4 hd hx0 hy1 hc, ok_bind, rdInZ_px4 hd hx1 hy1 hc, ok_bind]
  simp only [mul_one, mul_zero, val, zero, ok_bind, add_zero]
  exact cast _

/-- The cells hold the image `Q`. -/
def HoldsImg (w h : ℕ) (s : Cells UInt8) (Q : ℕ → ℕ → ℕ → UInt8) : Prop :=
  s.length = w * h * 4 ∧ ∀ x y c, x < w → y < h → c < 4 → s[(y * w + x) * 4 + c]? = some (some (Q x y c))

theorem HoldsImg.eq {w h : ℕ} {s : Cells UInt8} {Q : ℕ → ℕ → ℕ → UInt8} (hs : HoldsImg w h s Q) :
    s = (mkImg w h 4 Q).map some := by
  refine List.ext_getElem? fun k => ?_
  by_cases hk : k < w * h * 4
  · obtain ⟨x, y, c, hx, hy, hc, rfl⟩ := idx3_surj hk
    rw [hs.2 x y c hx hy hc, List.getElem?_map, mkImg_getElem? hx hy hc]
    rfl
  · rw [List.getElem?_eq_none (by rw [hs.1]; omega), List.getElem?_eq_none (by simp [mkImg_length]; omega)]

theorem HoldsImg.congr {w h : ℕ} {s : Cells UInt8} {Q Q' : ℕ → ℕ → ℕ → UInt8} (hs : HoldsImg w h s Q)
    (e : ∀ x y c, x < w → y < h → c < 4 → Q x y c = Q' x y c) : HoldsImg w h s Q' :=
  ⟨hs.1, fun x y c hx hy hc => by rw [hs.2 x y c hx hy hc, e x y c hx hy hc]⟩

theorem HoldsImg.put {w h : ℕ} {s : Cells UInt8} {Q : ℕ → ℕ → ℕ → UInt8} (hs : HoldsImg w h s Q) {x y c : ℕ} (hx : x < w)
    (hy : y < h) (hc : c < 4) (v : UInt8) :
    Ok (wr s ((y * w + x) * 4 + c) v)
      (HoldsImg w h · fun x' y' c' => if x' = x ∧ y' = y ∧ c' = c then v else Q x' y' c') := by
  have hlt := idx3_lt hx hy hc
  rw [wr_ok (by rw [hs.1]; exact hlt)]
  refine Ok.pure ⟨by rw [List.length_set]; exact hs.1, ?_⟩
  intro x' y' c' hx' hy' hc'
  dsimp only
  by_cases e : x' = x ∧ y' = y ∧ c' = c
  · obtain ⟨rfl, rfl, rfl⟩ := e
    rw [List.getElem?_set_self (by rw [hs.1]; exact hlt), if_pos ⟨rfl, rfl, rfl⟩]
  · rw [if_neg e, List.getElem?_set_ne, hs.2 x' y' c' hx' hy' hc']
    intro he
    obtain ⟨a1, a2, a3⟩ := idx3_decode (y := y) hx hc
    obtain ⟨b1, b2, b3⟩ := idx3_decode (y := y') hx' hc'
    rw [he, b1] at a1
    rw [he, b2] at a2
    rw [he, b3] at a3
    exact e ⟨a1, a2, a3⟩

/-- Writing one pixel. -/
theorem HoldsImg.pixel {w h : ℕ} {s : Cells UInt8} {Q : ℕ → ℕ → ℕ → UInt8} (hs : HoldsImg w h s Q) {x y : ℕ} (hx : x < w)
    (hy : y < h) (p : ℕ → UInt8) {body : ℕ → Cells UInt8 → CM (Cells UInt8)}
    (hb : ∀ c, c < 4 → ∀ s, body c s = wr s ((y * w + x) * 4 + c) (p c)) :
    Ok (forN 4 s body) (HoldsImg w h · fun x' y' c' => if x' = x ∧ y' = y then p c' else Q x' y' c') := by
  refine (forN_ok (fun n (s : Cells UInt8) => HoldsImg w h s fun x' y' c' =>
    if x' = x ∧ y' = y ∧ c' < n then p c' else Q x' y' c') ?_ ?_).mono ?_
  · refine hs.congr fun x' y' c' _ _ _ => ?_
    rw [if_neg (by omega)]
  · intro n hn s hs
    rw [hb n hn]
    refine (hs.put hx hy hn _).mono ?_
    intro t ht
    refine ht.congr fun x' y' c' _ _ _ => ?_
    by_cases e : x' = x ∧ y' = y ∧ c' = n
    · rw [if_pos e, if_pos (by omega), e.2.2]
    · rw [if_neg e]
      by_cases e2 : x' = x ∧ y' = y ∧ c' < n
      · rw [if_pos e2, if_pos (by omega)]
      · rw [if_neg e2, if_neg (by omega)]
  · intro t ht
    refine ht.congr fun x' y' c' _ _ hc => ?_
    by_cases e : x' = x ∧ y' = y
    · rw [if_pos e, if_pos ⟨e.1, e.2, hc⟩]
    · rw [if_neg e, if_neg (by tauto)]

theorem linear64_eq (a b c : Dbl) (x y : ℕ) : affine a b c x y = linear64 a b c x y := rfl

theorem castI32_floor {q : ℚ} (h : Fits32 q) : castI32 ((⌊q⌋ : ℤ) : ℚ) = .ok ⌊q⌋ := by
  obtain ⟨h1, h2⟩ := h
  have := castInt_ok (lo := -2147483648) (hi := 2147483647) (q := ((⌊q⌋ : ℤ) : ℚ)) (by rw [trunc_int]; omega)
    (by rw [trunc_int]; omega)
  rw [trunc_int] at this
  exact this

theorem tiny_test {v : Dbl} : Dbl.lt (absDbl v) (.fin tiny10) = true ↔ ∃ q : ℚ, v = .fin q ∧ |q| < tiny10 := by
  cases v with
  | nan => simp [absDbl, Dbl.lt]
  | inf s => simp [absDbl, Dbl.lt]
  | fin q => simp [absDbl, Dbl.lt]

/-- One output pixel: what is written does not depend on the buffer. -/
theorem warpPixel_ok {iw ih ow oh : ℕ} {d : List UInt8} (hd : d.length = iw * ih * 4) (hs : iw * ih ≤ 536870912)
    (ho : ow * oh ≤ 536870912) {m : Mat Dbl} {x y : ℕ} (hx : x < ow) (hy : y < oh)
    (hf : NoPosition m x y ∨ ∃ sx sy, Position m x y sx sy ∧ Fits32 sx ∧ Fits32 sy) :
    ∃ p : ℕ → UInt8, ((NoPosition m x y ∧ ∀ c, c < 4 → p c = 0) ∨
        ∃ sx sy, Position m x y sx sy ∧ SampledAt iw ih d sx sy p) ∧
      ∀ Q s, HoldsImg ow oh s Q → (∀ c, Q x y c = 0) →
        Ok (warpPixel iw ih d ow m y x s)
          (HoldsImg ow oh · fun x' y' c' => if x' = x ∧ y' = y then p c' else Q x' y' c') := by
  have stay : ∀ Q s, HoldsImg ow oh s Q → (∀ c, Q x y c = 0) →
      Ok (pure s : CM _) (HoldsImg ow oh · fun x' y' c' => if x' = x ∧ y' = y then 0 else Q x' y' c') := by
    intro Q s hs h0
    refine Ok.pure' (hs.congr fun x' y' c' _ _ _ => ?_)
    by_cases e : x' = x ∧ y' = y
    · rw [if_pos e, e.1, e.2, h0]
    · rw [if_neg e]
  rcases hf with hn | ⟨sx, sy, hp, hfx, hfy⟩
  · refine ⟨fun _ => 0, Or.inl ⟨hn, fun _ _ => rfl⟩, ?_⟩
    intro Q s hs h0
    unfold warpPixel
    dsimp only
    rw [if_pos (show Dbl.lt (absDbl (affine m.m20 m.m21 m.m22 x y)) (.fin tiny10) = true from tiny_test.2 hn)]
    exact stay Q s hs h0
  · have hnt : ¬ Dbl.lt (absDbl (affine m.m20 m.m21 m.m22 x y)) (.fin tiny10) = true := fun h => hp.some (tiny_test.1 h)
    have run : ∀ s, warpPixel iw ih d ow m y x s =
        if 0 ≤ ⌊sx⌋ ∧ ⌊sx⌋ < (iw : ℤ) ∧ 0 ≤ ⌊sy⌋ ∧ ⌊sy⌋ < (ih : ℤ) then do
          let x1c := if ⌊sx⌋ + 1 < (iw : ℤ) then ⌊sx⌋ + 1 else ⌊sx⌋
          let y1c := if ⌊sy⌋ + 1 < (ih : ℤ) then ⌊sy⌋ + 1 else ⌊sy⌋
          let dx ← f64 (sx - (⌊sx⌋ : ℤ))
          let dy ← f64 (sy - (⌊sy⌋ : ℤ))
          let dx := if x1c = ⌊sx⌋ then 0 else dx
          let dy := if y1c = ⌊sy⌋ then 0 else dy
          let p00 ← pixIdx iw ⌊sx⌋ ⌊sy⌋
          let p01 ← pixIdx iw x1c ⌊sy⌋
          let p10 ← pixIdx iw ⌊sx⌋ y1c
          let p11 ← pixIdx iw x1c y1c
          forN 4 s fun c out => do
            let v ← warpByte d p00 p01 p10 p11 dx dy c
            let o ← pixIdx ow x y
            wrZ out (← i32 (o + c)) v
        else pure s := by
      intro s
      unfold warpPixel
      dsimp only
      rw [if_neg hnt]
      rw [linear64_eq, linear64_eq, linear64_eq, hp.evalX, ok_bind, hp.evalY]
      simp only [finiteVal, ok_bind]
      rw [castI32_floor hfx, ok_bind, castI32_floor hfy, ok_bind, i32_ok ⟨by have := hfx.1; omega, by have := hfx.2; omega⟩,
        ok_bind, i32_ok ⟨by have := hfy.1; omega, by have := hfy.2; omega⟩, ok_bind]
    by_cases hin : 0 ≤ ⌊sx⌋ ∧ ⌊sx⌋ < (iw : ℤ) ∧ 0 ≤ ⌊sy⌋ ∧ ⌊sy⌋ < (ih : ℤ)
    · have onI : OnImage iw ih sx sy := by
        refine ⟨Int.floor_nonneg.1 hin.1, ?_, Int.floor_nonneg.1 hin.2.2.1, ?_⟩
        · have := Int.floor_lt.1 hin.2.1; exact_mod_cast this
        · have := Int.floor_lt.1 hin.2.2.2; exact_mod_cast this
      obtain ⟨i, hi⟩ := Int.eq_ofNat_of_zero_le hin.1
      obtain ⟨j, hj⟩ := Int.eq_ofNat_of_zero_le hin.2.2.1
      have hi' : ⌊sx⌋ = (i : ℤ) := hi
      have hj' : ⌊sy⌋ = (j : ℤ) := hj
      have hiw : i < iw := by have := hin.2.1; omega
      have hjh : j < ih := by have := hin.2.2.2; omega
      obtain ⟨i1, hi1⟩ : ∃ i1, i1 = min (i + 1) (iw - 1) := ⟨_, rfl⟩
      obtain ⟨j1, hj1⟩ : ∃ j1, j1 = min (j + 1) (ih - 1) := ⟨_, rfl⟩
      have ex : (if (i : ℤ) + 1 < (iw : ℤ) then (i : ℤ) + 1 else (i : ℤ)) = (i1 : ℤ) := by split <;> omega
      have ey : (if (j : ℤ) + 1 < (ih : ℤ) then (j : ℤ) + 1 else (j : ℤ)) = (j1 : ℤ) := by split <;> omega
      -- the fractions
      have frac : ∀ (q : ℚ) (k : ℕ), ⌊q⌋ = (k : ℤ) → ∃ f, f64 (q - ((k : ℤ) : ℚ)) = .ok f ∧ 0 ≤ f ∧ f ≤ 1 ∧
          |f - (q - k)| ≤ 1 / 2 ^ 50 ∧ (q = k → f = 0) := by
        intro q k hk
        have g1 := Int.floor_le q
        have g2 := Int.lt_floor_add_one q
        rw [hk] at g1 g2
        have a0 : 0 ≤ q - ((k : ℤ) : ℚ) := by linarith
        have a1 : q - ((k : ℤ) : ℚ) ≤ 1 := by linarith
        have aabs : |q - ((k : ℤ) : ℚ)| ≤ 1 := by rw [abs_of_nonneg a0]; exact a1
        refine ⟨_, f64_ok (aabs.trans (by norm_num)), rnd_nonneg _ a0, rnd_le _ a1 rnd_one, ?_, ?_⟩
        · refine le_trans ?_ ((rnd64_err_le aabs (le_refl 1)).trans (by norm_num))
          push_cast
          exact le_refl _
        · rintro rfl
          push_cast
          rw [sub_self, rnd_zero]
      obtain ⟨fx, efx, fx0, fx1, fxe, fxz⟩ := frac sx i hi'
      obtain ⟨fy, efy, fy0, fy1, fye, fyz⟩ := frac sy j hj'
      obtain ⟨gx, hgx⟩ : ∃ gx, gx = if (i1 : ℤ) = (i : ℤ) then 0 else fx := ⟨_, rfl⟩
      obtain ⟨gy, hgy⟩ : ∃ gy, gy = if (j1 : ℤ) = (j : ℤ) then 0 else fy := ⟨_, rfl⟩
      have gx0 : 0 ≤ gx := by rw [hgx]; split <;> linarith
      have gx1 : gx ≤ 1 := by rw [hgx]; split <;> linarith
      have gy0 : 0 ≤ gy := by rw [hgy]; split <;> linarith
      have gy1 : gy ≤ 1 := by rw [hgy]; split <;> linarith
      have key := fun c hc => warpByte_ok hd hiw (show i1 < iw by omega) hjh (show j1 < ih by omega) gx0 gx1 gy0 gy1
        (c := c) hc
      obtain ⟨p, hpv⟩ : ∃ p : ℕ → UInt8, ∀ c, c < 4 → warpByte d (((j * iw + i) * 4 : ℕ) : ℤ)
          (((j * iw + i1) * 4 : ℕ) : ℤ) (((j1 * iw + i) * 4 : ℕ) : ℤ) (((j1 * iw + i1) * 4 : ℕ) : ℤ) gx gy c = .ok (p c) ∧
          Cuts (((px iw 4 d i j c).toNat * (1 - gx) + (px iw 4 d i1 j c).toNat * gx) * (1 - gy) +
            ((px iw 4 d i j1 c).toNat * (1 - gx) + (px iw 4 d i1 j1 c).toNat * gx) * gy) (p c) :=
        ⟨fun c => if hc : c < 4 then (key c hc).choose else 0, fun c hc => by
          dsimp only
          rw [dif_pos hc]
          exact (key c hc).choose_spec⟩
      refine ⟨p, Or.inr ⟨sx, sy, hp, ⟨fun h => absurd onI h, fun _ => ?_, ?_⟩⟩, ?_⟩
      · refine ⟨i + fx, j + fy, ?_, ?_, fun c hc => ?_⟩
        · rw [show (i : ℚ) + fx - sx = fx - (sx - i) by ring]; exact fxe
        · rw [show (j : ℚ) + fy - sy = fy - (sy - j) by ring]; exact fye
        · have h := (hpv c hc).2
          have lx : ∀ v : ℕ → ℚ, lerp iw v (i + fx) = v i * (1 - gx) + v i1 * gx := by
            intro v
            rw [lerp_at hiw fx0 fx1, ← hi1, hgx]
            split
            · rename_i e
              rw [show i1 = i by omega]
              ring
            · rfl
          have ly : ∀ v : ℕ → ℚ, lerp ih v (j + fy) = v j * (1 - gy) + v j1 * gy := by
            intro v
            rw [lerp_at hjh fy0 fy1, ← hj1, hgy]
            split
            · rename_i e
              rw [show j1 = j by omega]
              ring
            · rfl
          unfold lerp2
          rw [ly, lx, lx]
          exact h
      · intro a b ha hb e1 e2 c hc
        have ea : a = i := by
          rw [e1, show ((a : ℕ) : ℚ) = ((a : ℤ) : ℚ) by simp, Int.floor_intCast] at hi'
          omega
        have eb : b = j := by
          rw [e2, show ((b : ℕ) : ℚ) = ((b : ℤ) : ℚ) by simp, Int.floor_intCast] at hj'
          omega
        subst ea eb
        have hx0 : gx = 0 := by rw [hgx]; split
                                · rfl
                                · exact fxz e1
        have hy0 : gy = 0 := by rw [hgy]; split
                                · rfl
                                · exact fyz e2
        have h1 := (hpv c hc).1
        rw [hx0, hy0, warpByte_exact hd hiw (by omega) hjh (by omega) hc] at h1
        exact (Except.ok.inj h1).symm
      · intro Q s hs h0
        rw [run, if_pos hin, hi', hj']
        dsimp only
        rw [ex, ey, efx, ok_bind, efy, ok_bind]
        rw [pixIdx_ok hiw hjh (by assumption), ok_bind, pixIdx_ok (show i1 < iw by omega) hjh (by assumption), ok_bind,
          pixIdx_ok hiw (show j1 < ih by omega) (by assumption), ok_bind,
          pixIdx_ok (show i1 < iw by omega) (show j1 < ih by omega) (by assumption), ok_bind, ← hgx, ← hgy]
        refine hs.pixel hx hy p ?_
        intro c hc s
        have hlt := idx3_lt hx hy hc
        rw [(hpv c hc).1, ok_bind, pixIdx_ok hx hy ho, ok_bind, i32_ok ⟨by omega, by omega⟩, ok_bind]
        unfold wrZ
        rw [if_pos (by omega), show ((((y * ow + x) * 4 : ℕ) : ℤ) + (c : ℤ)).toNat = (y * ow + x) * 4 + c by omega]
    · have offI : ¬ OnImage iw ih sx sy := by
        rintro ⟨h1, h2, h3, h4⟩
        refine hin ⟨Int.floor_nonneg.2 h1, Int.floor_lt.2 (by exact_mod_cast h2), Int.floor_nonneg.2 h3,
          Int.floor_lt.2 (by exact_mod_cast h4)⟩
      refine ⟨fun _ => 0, Or.inr ⟨sx, sy, hp, ⟨fun _ _ _ => rfl, fun h => absurd h offI, ?_⟩⟩, ?_⟩
      · intro a b ha hb e1 e2
        exfalso
        apply offI
        rw [e1, e2]
        exact ⟨Nat.cast_nonneg _, by exact_mod_cast ha, Nat.cast_nonneg _, by exact_mod_cast hb⟩
      · intro Q s hs h0
        rw [run, if_neg hin]
        exact stay Q s hs h0

/-- The whole picture. -/
theorem warp_ok {iw ih ow oh : ℕ} {d : List UInt8} (hd : d.length = iw * ih * 4) (hs : iw * ih ≤ 536870912)
    (ho : ow * oh ≤ 536870912) {m : Mat Dbl} (hf : CoordsFit m ow oh) :
    Ok (forN oh (List.replicate (ow * oh * 4) (some (0 : UInt8))) fun out_y s =>
        forN ow s fun out_x s => warpPixel iw ih d ow m out_y out_x s)
      fun s => ∃ out, s = out.map some ∧ Warped m iw ih d ow oh out := by
  have key := fun x y (hx : x < ow) (hy : y < oh) => warpPixel_ok hd hs ho hx hy (hf x hx y hy)
  obtain ⟨P, hP⟩ : ∃ P : ℕ → ℕ → ℕ → UInt8, ∀ x y, x < ow → y < oh →
      ((NoPosition m x y ∧ ∀ c, c < 4 → P x y c = 0) ∨
        ∃ sx sy, Position m x y sx sy ∧ SampledAt iw ih d sx sy (P x y)) ∧
      ∀ Q s, HoldsImg ow oh s Q → (∀ c, Q x y c = 0) →
        Ok (warpPixel iw ih d ow m y x s)
          (HoldsImg ow oh · fun x' y' c' => if x' = x ∧ y' = y then P x y c' else Q x' y' c') := by
    refine ⟨fun x y => if hx : x < ow then if hy : y < oh then (key x y hx hy).choose else fun _ => 0 else fun _ => 0, ?_⟩
    intro x y hx hy
    dsimp only
    rw [dif_pos hx, dif_pos hy]
    exact (key x y hx hy).choose_spec
  refine (forN_ok (fun b (s : Cells UInt8) => HoldsImg ow oh s fun x y c => if y < b then P x y c else 0) ?_ ?_).mono ?_
  · refine ⟨by simp, fun x y c hx hy hc => ?_⟩
    have hlt := idx3_lt hx hy hc
    dsimp only
    rw [if_neg (by omega), List.getElem?_replicate, if_pos hlt]
  · intro b hb s hs
    refine (forN_ok (fun a (s : Cells UInt8) => HoldsImg ow oh s fun x y c =>
      if y < b ∨ (y = b ∧ x < a) then P x y c else 0) ?_ ?_).mono ?_
    · refine hs.congr fun x y c _ _ _ => ?_
      by_cases e : y < b
      · rw [if_pos e, if_pos (Or.inl e)]
      · rw [if_neg e, if_neg (by omega)]
    · intro a ha s hs
      refine ((hP a b ha hb).2 _ s hs ?_).mono ?_
      · intro c
        rw [if_neg (by omega)]
      · intro t ht
        refine ht.congr fun x y c _ _ _ => ?_
        by_cases e : x = a ∧ y = b
        · rw [if_pos e, if_pos (by omega), e.1, e.2]
        · rw [if_neg e]
          by_cases e2 : y < b ∨ (y = b ∧ x < a)
          · rw [if_pos e2, if_pos (by omega)]
          · rw [if_neg e2, if_neg (by omega)]
    · intro t ht
      refine ht.congr fun x y c hx _ _ => ?_
      by_cases e : y < b + 1
      · rw [if_pos (by omega), if_pos e]
      · rw [if_neg (by omega), if_neg e]
  · intro s hs
    refine ⟨_, hs.eq, mkImg_length _ _ _ _, fun x hx y hy => ?_⟩
    have e : ∀ c, c < 4 → px ow 4 (mkImg ow oh 4 fun x y c => if y < oh then P x y c else 0) x y c = P x y c := by
      intro c hc
      rw [px_mkImg hx hy hc, if_pos hy]
    rcases (hP x y hx hy).1 with ⟨h1, h2⟩ | ⟨sx, sy, h1, h2⟩
    · exact Or.inl ⟨h1, fun c hc => by rw [e c hc, h2 c hc]⟩
    · refine Or.inr ⟨sx, sy, h1, ⟨fun h c hc => ?_, fun h => ?_, fun i j hi hj ei ej c hc => ?_⟩⟩
      · rw [e c hc, h2.outside h c hc]
      · obtain ⟨tx, ty, g1, g2, g3⟩ := h2.inside h
        exact ⟨tx, ty, g1, g2, fun c hc => by rw [e c hc]; exact g3 c hc⟩
      · rw [e c hc, h2.exact i j hi hj ei ej c hc]

end FlatCV
