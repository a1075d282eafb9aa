/-
The samples of a macroblock.
-/
import Verif.Lemmas.JpegQuant

namespace FlatCV
open Model

theorem Apx.neg {a : Dbl} {x m e : ℝ} (h : Apx a x m e) : Apx a.neg (-x) m e := by
  obtain ⟨q, rfl, h1, h2⟩ := h
  refine ⟨-q, rfl, by rw [abs_neg]; exact h1, ?_⟩
  push_cast
  rw [show -(q : ℝ) - -x = -(q - x) by ring, abs_neg]
  exact h2

theorem apx_byte (r : UInt8) : Apx (.fin (r.toNat : ℚ)) (r.toNat : ℝ) 255 0 := by
  refine ⟨_, rfl, ?_, by simp⟩
  have := r.toNat_lt
  rw [abs_of_nonneg (Nat.cast_nonneg _)]
  have : r.toNat ≤ 255 := by omega
  exact_mod_cast this

theorem byte_real (r : UInt8) : (0 : ℝ) ≤ (r.toNat : ℝ) ∧ (r.toNat : ℝ) ≤ 255 := by
  have := r.toNat_lt
  have : r.toNat ≤ 255 := by omega
  exact ⟨Nat.cast_nonneg _, by exact_mod_cast this⟩

/-- A constant of the program and what it stands for. -/
theorem apx_lit {l : ℚ} {x : ℝ} {a m e : ℝ} (hx : 0 ≤ x) (hx' : x ≤ m) (h1 : (l : ℝ) - x ≤ a) (h2 : x - l ≤ a) (ha : a ≤ 1)
    (he : a + (m + a) / 16777216 + 1 / 10 ^ 12 ≤ e) (hm : m ≤ 10) (he' : e ≤ 10) : Apx (flt l) x m e := by
  have := tiny_le
  have k : |(l : ℝ) - x| ≤ a := abs_le.2 ⟨by linarith, h1⟩
  exact Apx.const (by rw [abs_of_nonneg hx]; exact hx') (by linarith) (by linarith) (by linarith)

section
variable (r g b : UInt8)

theorem jpgY_apx : ∃ q : ℚ, jpgY (.fin r.toNat) (.fin g.toNat) (.fin b.toNat) = .fin q ∧
    |(q : ℝ) - ((Jpg.luma r.toNat g.toNat b.toNat - 128 : ℚ) : ℝ)| ≤ 0.0022 := by
  have t := tiny_le
  have c1 : Apx (flt (29900 / 100000)) (299 / 1000) 0.3 0.0000001 :=
    apx_lit (a := 0) (by norm_num) (by norm_num) (by norm_num) (by norm_num) (by norm_num) (by norm_num) (by norm_num) (by norm_num)
  have c2 : Apx (flt (58700 / 100000)) (587 / 1000) 0.6 0.0000001 :=
    apx_lit (a := 0) (by norm_num) (by norm_num) (by norm_num) (by norm_num) (by norm_num) (by norm_num) (by norm_num) (by norm_num)
  have c3 : Apx (flt (11400 / 100000)) (114 / 1000) 0.2 0.0000001 :=
    apx_lit (a := 0) (by norm_num) (by norm_num) (by norm_num) (by norm_num) (by norm_num) (by norm_num) (by norm_num) (by norm_num)
  have p1 := Apx.mul c1 (apx_byte r) (M := 100) (E := 0.0001) (by norm_num) (by linarith) (by norm_num)
  have p2 := Apx.mul c2 (apx_byte g) (M := 200) (E := 0.0001) (by norm_num) (by linarith) (by norm_num)
  have p3 := Apx.mul c3 (apx_byte b) (M := 100) (E := 0.0001) (by norm_num) (by linarith) (by norm_num)
  have s1 := Apx.add p1 p2 (M := 300) (E := 0.0003) (by norm_num) (by linarith) (by norm_num)
  have s2 := Apx.add s1 p3 (M := 400) (E := 0.0005) (by norm_num) (by linarith) (by norm_num)
  have k : Apx (.fin 128) 128 128 0 := ⟨128, rfl, by norm_num, by norm_num⟩
  obtain ⟨q, e, _, h⟩ := Apx.sub s2 k (M := 600) (E := 0.0022) (by norm_num) (by linarith) (by norm_num)
  refine ⟨q, e, ?_⟩
  unfold Jpg.luma
  push_cast
  exact h

theorem jpgU_apx : ∃ q : ℚ, jpgU (.fin r.toNat) (.fin g.toNat) (.fin b.toNat) = .fin q ∧
    |(q : ℝ) - (Jpg.blueDiff r.toNat g.toNat b.toNat : ℚ)| ≤ 0.0022 := by
  have t := tiny_le
  have c1 : Apx (flt (16874 / 100000)) (299 / 1772) 0.17 0.0000042 :=
    apx_lit (a := 0.00000411) (by norm_num) (by norm_num) (by norm_num) (by norm_num) (by norm_num) (by norm_num) (by norm_num) (by norm_num)
  have c2 : Apx (flt (33126 / 100000)) (587 / 1772) 0.34 0.0000042 :=
    apx_lit (a := 0.00000411) (by norm_num) (by norm_num) (by norm_num) (by norm_num) (by norm_num) (by norm_num) (by norm_num) (by norm_num)
  have c3 : Apx (flt (50000 / 100000)) (1 / 2) 0.5 0.00000004 :=
    apx_lit (a := 0) (by norm_num) (by norm_num) (by norm_num) (by norm_num) (by norm_num) (by norm_num) (by norm_num) (by norm_num)
  have p1 := Apx.mul c1.neg (apx_byte r) (M := 43.4) (E := 0.001074) (by norm_num) (by linarith) (by norm_num)
  have p2 := Apx.mul c2 (apx_byte g) (M := 86.7) (E := 0.001077) (by norm_num) (by linarith) (by norm_num)
  have p3 := Apx.mul c3 (apx_byte b) (M := 127.5) (E := 0.000018) (by norm_num) (by linarith) (by norm_num)
  have s1 := Apx.sub p1 p2 (M := 130.1) (E := 0.00216) (by norm_num) (by linarith) (by norm_num)
  obtain ⟨q, e, _, h⟩ := Apx.add s1 p3 (M := 260) (E := 0.0022) (by norm_num) (by linarith) (by norm_num)
  refine ⟨q, e, ?_⟩
  have e2 : ((Jpg.blueDiff r.toNat g.toNat b.toNat : ℚ) : ℝ) = -(299 / 1772) * (r.toNat : ℝ) - 587 / 1772 * g.toNat + 1 / 2 * b.toNat := by
    unfold Jpg.blueDiff Jpg.luma
    push_cast
    ring
  rw [e2]
  exact h

theorem jpgV_apx : ∃ q : ℚ, jpgV (.fin r.toNat) (.fin g.toNat) (.fin b.toNat) = .fin q ∧
    |(q : ℝ) - (Jpg.redDiff r.toNat g.toNat b.toNat : ℚ)| ≤ 0.0022 := by
  have t := tiny_le
  have c1 : Apx (flt (50000 / 100000)) (1 / 2) 0.5 0.00000004 :=
    apx_lit (a := 0) (by norm_num) (by norm_num) (by norm_num) (by norm_num) (by norm_num) (by norm_num) (by norm_num) (by norm_num)
  have c2 : Apx (flt (41869 / 100000)) (587 / 1402) 0.42 0.0000026 :=
    apx_lit (a := 0.00000243) (by norm_num) (by norm_num) (by norm_num) (by norm_num) (by norm_num) (by norm_num) (by norm_num) (by norm_num)
  have c3 : Apx (flt (8131 / 100000)) (114 / 1402) 0.082 0.0000026 :=
    apx_lit (a := 0.00000243) (by norm_num) (by norm_num) (by norm_num) (by norm_num) (by norm_num) (by norm_num) (by norm_num) (by norm_num)
  have p1 := Apx.mul c1 (apx_byte r) (M := 127.5) (E := 0.00002) (by norm_num) (by linarith) (by norm_num)
  have p2 := Apx.mul c2 (apx_byte g) (M := 107.1) (E := 0.0007) (by norm_num) (by linarith) (by norm_num)
  have p3 := Apx.mul c3 (apx_byte b) (M := 21) (E := 0.0007) (by norm_num) (by linarith) (by norm_num)
  have s1 := Apx.sub p1 p2 (M := 235) (E := 0.0009) (by norm_num) (by linarith) (by norm_num)
  obtain ⟨q, e, _, h⟩ := Apx.sub s1 p3 (M := 260) (E := 0.0022) (by norm_num) (by linarith) (by norm_num)
  refine ⟨q, e, ?_⟩
  have e2 : ((Jpg.redDiff r.toNat g.toNat b.toNat : ℚ) : ℝ) = 1 / 2 * (r.toNat : ℝ) - 587 / 1402 * g.toNat - 114 / 1402 * b.toNat := by
    unfold Jpg.redDiff Jpg.luma
    push_cast
    ring
  rw [e2]
  exact h

theorem luma_range : |((Jpg.luma r.toNat g.toNat b.toNat - 128 : ℚ) : ℝ)| ≤ 128 := by
  have h1 := byte_real r
  have h2 := byte_real g
  have h3 := byte_real b
  unfold Jpg.luma
  push_cast
  rw [abs_le]
  constructor <;> linarith

theorem blueDiff_range : |((Jpg.blueDiff r.toNat g.toNat b.toNat : ℚ) : ℝ)| ≤ 128 := by
  have h1 := byte_real r
  have h2 := byte_real g
  have h3 := byte_real b
  unfold Jpg.blueDiff Jpg.luma
  push_cast
  rw [abs_le]
  constructor <;> linarith

theorem redDiff_range : |((Jpg.redDiff r.toNat g.toNat b.toNat : ℚ) : ℝ)| ≤ 128 := by
  have h1 := byte_real r
  have h2 := byte_real g
  have h3 := byte_real b
  unfold Jpg.redDiff Jpg.luma
  push_cast
  rw [abs_le]
  constructor <;> linarith

end

/-- Component `c` of a pixel as the program computes it. -/
def pixComp (data : List UInt8) (width height c row col : ℕ) : Dbl :=
  let p := (min row (height - 1) * width + min col (width - 1)) * 4
  let r := Dbl.fin ((data.getD p 0).toNat : ℚ)
  let g := Dbl.fin ((data.getD (p + 1) 0).toNat : ℚ)
  let b := Dbl.fin ((data.getD (p + 2) 0).toNat : ℚ)
  match c with
  | 0 => jpgY r g b
  | 1 => jpgU r g b
  | _ => jpgV r g b

/-- Close to the exact value. -/
theorem pixComp_apx (data : List UInt8) (w h c row col : ℕ) : ∃ q : ℚ, pixComp data w h c row col = .fin q ∧
    |(q : ℝ) - (Jpg.plane w h data c row col : ℚ)| ≤ 0.0022 := by
  unfold pixComp Jpg.plane
  match c with
  | 0 => exact jpgY_apx _ _ _
  | 1 => exact jpgU_apx _ _ _
  | _ + 2 => exact jpgV_apx _ _ _

theorem plane_range (data : List UInt8) (w h c row col : ℕ) : |((Jpg.plane w h data c row col : ℚ) : ℝ)| ≤ 128 := by
  unfold Jpg.plane
  match c with
  | 0 => exact luma_range _ _ _
  | 1 => exact blueDiff_range _ _ _
  | _ + 2 => exact redDiff_range _ _ _

section
variable {data : List UInt8} {w h : ℕ} (hd : data.length = w * h * 4) (hw : 0 < w) (hh : 0 < h) (hb : w * h * 4 ≤ 2147483647)
include hd hw hh hb

theorem jpgPixel_ok {row col pos : ℕ} {t : Planes} {n : ℕ} {Y U V : ℕ → Dbl} (hp : pos < n)
    (hY : Y pos = pixComp data w h 0 row col) (hU : U pos = pixComp data w h 1 row col) (hV : V pos = pixComp data w h 2 row col)
    (h1 : Filled (fnTab n Y) (· < pos) t.y) (h2 : Filled (fnTab n U) (· < pos) t.u) (h3 : Filled (fnTab n V) (· < pos) t.v) :
    Ok (jpgPixel data w h row col pos t) fun t' =>
      Filled (fnTab n Y) (· < pos + 1) t'.y ∧ Filled (fnTab n U) (· < pos + 1) t'.u ∧ Filled (fnTab n V) (· < pos + 1) t'.v := by
  have er : (if row < h then row else h - 1) = min row (h - 1) := by
    split <;> omega
  have ec : (if col < w then col else w - 1) = min col (w - 1) := by
    split <;> omega
  have hr : min row (h - 1) ≤ h - 1 := min_le_right _ _
  have hc : min col (w - 1) ≤ w - 1 := min_le_right _ _
  unfold jpgPixel
  rw [er, ec]
  have eY := hY
  have eU := hU
  have eV := hV
  unfold pixComp at hY hU hV
  generalize min row (h - 1) = R at *
  generalize min col (w - 1) = C at *
  have hRC : (R * w + C + 1) * 4 ≤ w * h * 4 := by
    have : R * w + w ≤ h * w := by
      have : (R + 1) * w ≤ h * w := Nat.mul_le_mul_right _ (by omega)
      linarith
    have e : w * h = h * w := Nat.mul_comm _ _
    omega
  have e1 : ((R : ℕ) : ℤ) * (w : ℤ) = ((R * w : ℕ) : ℤ) := by push_cast; rfl
  rw [e1]
  generalize R * w = N at *
  rw [i32_ok (by unfold IsI32; omega), ok_bind, i32_ok (by unfold IsI32; omega), ok_bind, i32_ok (by unfold IsI32; omega), ok_bind,
    i32_ok (by unfold IsI32; omega), ok_bind]
  have e2 : ((N : ℤ) * 4 + (C : ℤ) * 4).toNat = (N + C) * 4 := by omega
  have get : ∀ i < data.length, data[i]? = some (data.getD i 0) := by
    intro i hi
    rw [List.getD_eq_getElem?_getD, List.getElem?_eq_getElem hi]
    rfl
  rw [e2, rdIn_ok (get _ (by omega)), ok_bind, rdIn_ok (get _ (by omega)), ok_bind, rdIn_ok (get _ (by omega)), ok_bind]
  dsimp only
  refine Ok.bind (h1.wr (by rw [fnTab_get Y hp, hY]; rfl)) fun y' h1' => ?_
  refine Ok.bind (h2.wr (by rw [fnTab_get U hp, hU]; rfl)) fun u' h2' => ?_
  refine Ok.bind (h3.wr (by rw [fnTab_get V hp, hV]; rfl)) fun v' h3' => ?_
  exact Ok.pure ⟨h1'.mono fun k _ h => by omega, h2'.mono fun k _ h => by omega, h3'.mono fun k _ h => by omega⟩

theorem gather_loop (n y x : ℕ) :
    Ok (forN n (⟨List.replicate n none, List.replicate n none, List.replicate n none⟩ : Planes) fun pos t =>
      jpgPixel data w h (y + pos / 16) (x + pos % 16) pos t) fun t =>
    t.y = (fnTab n fun i => pixComp data w h 0 (y + i / 16) (x + i % 16)).map some ∧
    t.u = (fnTab n fun i => pixComp data w h 1 (y + i / 16) (x + i % 16)).map some ∧
    t.v = (fnTab n fun i => pixComp data w h 2 (y + i / 16) (x + i % 16)).map some := by
  have start : ∀ g : ℕ → Dbl, Filled (fnTab n g) (· < 0) (List.replicate n none) := fun g =>
    (Filled.start' _ (by rw [fnTab_length])).mono fun k _ h => by omega
  have done : ∀ (g : ℕ → Dbl) (t : Cells Dbl), Filled (fnTab n g) (· < n) t → t = (fnTab n g).map some := fun g t h =>
    h.done fun k hk => by rwa [fnTab_length] at hk
  refine (forN_ok (fun i (t : Planes) => Filled (fnTab n fun i => pixComp data w h 0 (y + i / 16) (x + i % 16)) (· < i) t.y ∧
      Filled (fnTab n fun i => pixComp data w h 1 (y + i / 16) (x + i % 16)) (· < i) t.u ∧
      Filled (fnTab n fun i => pixComp data w h 2 (y + i / 16) (x + i % 16)) (· < i) t.v) ⟨start _, start _, start _⟩ ?_).mono ?_
  · rintro i hi t ⟨h1, h2, h3⟩
    exact jpgPixel_ok hd hw hh hb hi rfl rfl rfl h1 h2 h3
  · rintro t ⟨h1, h2, h3⟩
    exact ⟨done _ _ h1, done _ _ h2, done _ _ h3⟩

/-- The macroblock. -/
theorem jpgGather_ok {y x : ℕ} (hy : y ≤ 1000000) (hx : x ≤ 1000000) :
    Ok (jpgGather data w h y x) fun t =>
    t.y = (fnTab 256 fun i => pixComp data w h 0 (y + i / 16) (x + i % 16)).map some ∧
    t.u = (fnTab 256 fun i => pixComp data w h 1 (y + i / 16) (x + i % 16)).map some ∧
    t.v = (fnTab 256 fun i => pixComp data w h 2 (y + i / 16) (x + i % 16)).map some := by
  unfold jpgGather
  rw [i32_ok (by unfold IsI32; omega), ok_bind, i32_ok (by unfold IsI32; omega), ok_bind]
  exact gather_loop hd hw hh hb 256 y x

end

/-- The mean of four values. -/
def mean4 (a b c d : Dbl) : Dbl := fmul (fadd (fadd (fadd a b) c) d) (flt (1 / 4))

theorem jpgSub_ok (u : ℕ → Dbl) : jpgSub (fnTab 256 u) = .ok (fnTab 64 fun i =>
    mean4 (u (i / 8 * 32 + i % 8 * 2)) (u (i / 8 * 32 + i % 8 * 2 + 1)) (u (i / 8 * 32 + i % 8 * 2 + 16)) (u (i / 8 * 32 + i % 8 * 2 + 17))) := by
  unfold jpgSub
  have h : Ok (forN 64 (List.replicate 64 none) fun pos t => do
      let m ← jpgMean (fnTab 256 u) (pos / 8 * 32 + pos % 8 * 2)
      wr t pos m) (Filled (fnTab 64 fun i =>
        mean4 (u (i / 8 * 32 + i % 8 * 2)) (u (i / 8 * 32 + i % 8 * 2 + 1)) (u (i / 8 * 32 + i % 8 * 2 + 16))
          (u (i / 8 * 32 + i % 8 * 2 + 17))) fun k => False ∨ ∃ i, i < 64 ∧ k = i) := by
    refine Filled.loop (fun i k => k = i) (Filled.start' _ (by rw [fnTab_length])) ?_
    intro j hj V t hV
    unfold jpgMean
    rw [fnTab_rd _ (by omega), ok_bind, fnTab_rd _ (by omega), ok_bind, fnTab_rd _ (by omega), ok_bind, fnTab_rd _ (by omega), ok_bind,
      pure_bind']
    exact hV.wr (fnTab_get _ hj)
  obtain ⟨t, e, h⟩ := h
  rw [e, ok_bind, h.done (fun k hk => Or.inr ⟨k, by rw [fnTab_length] at hk; exact hk, rfl⟩), asInput_map_some]

theorem mean4_apx {a b c d : Dbl} {x y z t : ℝ} (ha : Apx a x 128 0.0022) (hb : Apx b y 128 0.0022) (hc : Apx c z 128 0.0022)
    (hd : Apx d t 128 0.0022) : Apx (mean4 a b c d) ((x + y + z + t) / 4) 128 0.00225 := by
  have ti := tiny_le
  have q : Apx (flt (1 / 4)) (1 / 4) 0.25 0.00000002 :=
    apx_lit (a := 0) (by norm_num) (by norm_num) (by norm_num) (by norm_num) (by norm_num) (by norm_num) (by norm_num) (by norm_num)
  have s1 := Apx.add ha hb (M := 256) (E := 0.004416) (by norm_num) (by linarith) (by norm_num)
  have s2 := Apx.add s1 hc (M := 384) (E := 0.00664) (by norm_num) (by linarith) (by norm_num)
  have s3 := Apx.add s2 hd (M := 512) (E := 0.00888) (by norm_num) (by linarith) (by norm_num)
  have := Apx.mul s3 q (M := 128) (E := 0.00225) (by norm_num) (by linarith) (by norm_num)
  rw [div_eq_mul_one_div]
  exact this

end FlatCV
