/-
The scan of a JPEG file: the macroblocks that are written and what a reader finds in them.
-/
import Verif.Lemmas.JpegSamples
import Verif.Lemmas.JpegBlock

namespace FlatCV
open Model Jpg

/-- A table of steps with the scales derived from it. -/
structure StepsFor (table : List UInt8) (f : ℕ → Dbl) : Prop where
  len : table.length = 64
  two : ∀ k < 64, 2 ≤ (table.getD k 0).toNat
  rel : ∀ k < 64, RelNear (f (8 * (zigzag.getD k (0, 0)).1 + (zigzag.getD k (0, 0)).2))
    (1 / ((table.getD k 0).toNat * (aanScale (zigzag.getD k (0, 0)).1 * aanScale (zigzag.getD k (0, 0)).2))) 13

/-- The numbers `c`, times the steps, are the transform of `s` up to rounding and the error `e`. -/
def Quantised (table : List UInt8) (s : ℕ → ℕ → ℝ) (e : ℝ) (c : List Int) : Prop :=
  c.length = 64 ∧ ∀ k < 64, |((table.getD k 0).toNat : ℝ) * (c.getD k 0 : ℝ) - dct s (zigzag.getD k (0, 0)).1 (zigzag.getD k (0, 0)).2| ≤
    (table.getD k 0).toNat / 2 + e

theorem Quantised.close {table : List UInt8} {s t : ℕ → ℕ → ℝ} {d e e' : ℝ} {c : List Int} (h : Quantised table s e c)
    (hst : ∀ y < 8, ∀ x < 8, |s y x - t y x| ≤ d) (hd : 0 ≤ d) (he : e + 8.03 * d ≤ e') : Quantised table t e' c := by
  refine ⟨h.1, fun k hk => ?_⟩
  obtain ⟨h1, h2, _⟩ := zigzag_inv k hk
  have a := h.2 k hk
  have b := dct_close hst hd h1 h2
  have := abs_add_le (((table.getD k 0).toNat : ℝ) * (c.getD k 0 : ℝ) - dct s (zigzag.getD k (0, 0)).1 (zigzag.getD k (0, 0)).2)
    (dct s (zigzag.getD k (0, 0)).1 (zigzag.getD k (0, 0)).2 - dct t (zigzag.getD k (0, 0)).1 (zigzag.getD k (0, 0)).2)
  rw [sub_add_sub_cancel] at this
  linarith

/-- One block. -/
theorem processDU_ok {n base stride : ℕ} {g f : ℕ → Dbl} {s : ℕ → ℕ → ℝ} {table : List UInt8} {htdc htac : List (Nat × Nat)} {dc ac : Code}
    (hs : stride = 8 ∨ stride = 16) (hn : base + stride * 7 + 7 < n)
    (hg : ∀ y < 8, ∀ x < 8, Apx (g (base + y * stride + x)) (s y x) 129 0) (hq : StepsFor table f) (ht : Tabs htdc htac dc ac)
    {pred : Int} (hp : |pred| ≤ 600) {w : JpgW} {pre : List UInt8} {bits : List Bool} (h : Emitted w pre bits) :
    ∃ g' c w' E, stbiw_jpg_processDU false (fnTab n g) base stride (fnTab 64 f) pred htdc htac w = .ok (fnTab n g', c.getD 0 0, w') ∧
      (∀ j, (∀ y < 8, ∀ x < 8, j ≠ base + y * stride + x) → g' j = g j) ∧ Quantised table s 0.028 c ∧ |c.getD 0 0| ≤ 600 ∧
      Emitted w' pre (bits ++ E) ∧ ∀ rest, decodeBlock dc ac pred (E ++ rest) = some (c, rest) := by
  obtain ⟨l, e1, g', rfl, h1, h2⟩ := transform_ok hs hn (by norm_num) (by norm_num) hg
  have hsm : ∀ y < 8, ∀ x < 8, |s y x| ≤ 129 := fun y hy x hx => by
    obtain ⟨q, _, h, _⟩ := hg y hy x hx
    exact h
  obtain ⟨c, e2, h3, h4⟩ := quantDU_ok hs hn hsm h1 (fun k hk => by have := hq.two k hk; omega) hq.rel
  have small : ∀ k < 64, |c.getD k 0| ≤ 600 := by
    intro k hk
    obtain ⟨z1, z2, _⟩ := zigzag_inv k hk
    have a := h4 k hk
    have b := dct_bound hsm (by norm_num) z1 z2
    have q2 : (2 : ℝ) ≤ ((table.getD k 0).toNat : ℝ) := by exact_mod_cast hq.two k hk
    have := abs_add_le (((table.getD k 0).toNat : ℝ) * (c.getD k 0 : ℝ) - dct s (zigzag.getD k (0, 0)).1 (zigzag.getD k (0, 0)).2)
      (dct s (zigzag.getD k (0, 0)).1 (zigzag.getD k (0, 0)).2)
    rw [sub_add_cancel, abs_mul, abs_of_nonneg (by linarith : (0 : ℝ) ≤ ((table.getD k 0).toNat : ℝ))] at this
    have key : |(c.getD k 0 : ℝ)| ≤ 600 := by
      by_contra hc
      nlinarith
    exact_mod_cast key
  have p1 := abs_le.1 hp
  have p2 := abs_le.1 (small 0 (by norm_num))
  obtain ⟨w', E, e3, h5, h6⟩ := jpgBlock_ok ht h3 (pred := pred) (by rw [abs_lt]; constructor <;> linarith)
    (fun k _ hk => by have := small k hk; omega) h
  refine ⟨g', c, w', E, ?_, h2, ⟨h3, h4⟩, small 0 (by norm_num), h5, h6⟩
  unfold stbiw_jpg_processDU
  cases hR : dctRows (fnTab n g) base stride with
  | error x => rw [hR] at e1; cases e1
  | ok l =>
    rw [hR, ok_bind] at e1
    rw [ok_bind, e1, ok_bind, e2, ok_bind, e3, ok_bind]
    rfl

/-! ### Macroblocks -/

/-- The value of a float. -/
def dblVal : Dbl → ℝ
  | .fin q => q
  | _ => 0

theorem pixComp_exact (data : List UInt8) (w h c row col : ℕ) : Apx (pixComp data w h c row col) (dblVal (pixComp data w h c row col)) 129 0 ∧
    |dblVal (pixComp data w h c row col) - (plane w h data c row col : ℚ)| ≤ 0.0022 ∧
    Apx (pixComp data w h c row col) (plane w h data c row col : ℚ) 128 0.0022 := by
  obtain ⟨q, e, hq⟩ := pixComp_apx data w h c row col
  have hr := plane_range data w h c row col
  refine ⟨⟨q, e, ?_, ?_⟩, ?_, ⟨q, e, hr, hq⟩⟩
  · rw [e]
    have := Apx.abs_le hr hq
    show |(q : ℝ)| ≤ 129
    linarith
  · rw [e]
    show |(q : ℝ) - q| ≤ 0
    rw [sub_self, abs_zero]
  · rw [e]
    exact hq

/-- The block in row `i` and column `j` of component `c`. -/
def BlockOk (w h : ℕ) (data table : List UInt8) (c i j : ℕ) (b : List Int) : Prop :=
  b.length = 64 ∧ ∀ k < 64, |((table.getD k 0).toNat : ℝ) * (b.getD k 0 : ℝ) - ideal w h data c i j k| ≤ (table.getD k 0).toNat / 2 + 1 / 16

/-- The macroblock in row `i` and column `j`. -/
def McuOk (w h : ℕ) (data yt uvt : List UInt8) (i j : ℕ) (m : List (List (List Int))) : Prop :=
  ∃ b00 b01 b10 b11 bu bv, m = [[b00, b01, b10, b11], [bu], [bv]] ∧
    BlockOk w h data yt 0 (2 * i) (2 * j) b00 ∧ BlockOk w h data yt 0 (2 * i) (2 * j + 1) b01 ∧
    BlockOk w h data yt 0 (2 * i + 1) (2 * j) b10 ∧ BlockOk w h data yt 0 (2 * i + 1) (2 * j + 1) b11 ∧
    BlockOk w h data uvt 1 i j bu ∧ BlockOk w h data uvt 2 i j bv

/-- The components of the scan. -/
def scan3 (yt uvt : List UInt8) : List Unit' :=
  [⟨2, 2, yDC, yAC, yt.map (·.toNat)⟩, ⟨1, 1, uvDC, uvAC, uvt.map (·.toNat)⟩, ⟨1, 1, uvDC, uvAC, uvt.map (·.toNat)⟩]

section
variable {data : List UInt8} {w h : ℕ} (hd : data.length = w * h * 4) (hw : 0 < w) (hh : 0 < h) (hb : w * h * 4 ≤ 2147483647)
  {yt uvt : List UInt8} {fy fuv : ℕ → Dbl} (hy : StepsFor yt fy) (huv : StepsFor uvt fuv)

theorem pix_index {data : List UInt8} {w h i j bi bj y x : ℕ} (hbi : bi < 2) (hbj : bj < 2) (hy : y < 8) (hx : x < 8) :
    pixComp data w h 0 (i * 16 + ((bi * 128 + bj * 8) + y * 16 + x) / 16) (j * 16 + ((bi * 128 + bj * 8) + y * 16 + x) % 16) =
      pixComp data w h 0 (i * 16 + (bi * 8 + y)) (j * 16 + (bj * 8 + x)) := by
  rw [show ((bi * 128 + bj * 8) + y * 16 + x) / 16 = bi * 8 + y by omega, show ((bi * 128 + bj * 8) + y * 16 + x) % 16 = bj * 8 + x by omega]

include hy in
/-- A block of luminance. -/
theorem lum_ok {i j bi bj : ℕ} (hbi : bi < 2) (hbj : bj < 2) {g : ℕ → Dbl}
    (hg : ∀ y < 8, ∀ x < 8, g ((bi * 128 + bj * 8) + y * 16 + x) = pixComp data w h 0 (i * 16 + (bi * 8 + y)) (j * 16 + (bj * 8 + x)))
    {pred : Int} (hp : |pred| ≤ 600) {wr : JpgW} {pre : List UInt8} {bits : List Bool} (he : Emitted wr pre bits) :
    ∃ g' c w' E, jpgLum false (fnTab 64 fy) (bi * 128 + bj * 8) (fnTab 256 g, pred, wr) = .ok (fnTab 256 g', c.getD 0 0, w') ∧
      (∀ l, (∀ y < 8, ∀ x < 8, l ≠ (bi * 128 + bj * 8) + y * 16 + x) → g' l = g l) ∧
      BlockOk w h data yt 0 (2 * i + bi) (2 * j + bj) c ∧ |c.getD 0 0| ≤ 600 ∧
      Emitted w' pre (bits ++ E) ∧ ∀ rest, decodeBlock yDC yAC pred (E ++ rest) = some (c, rest) := by
  obtain ⟨g', c, w', E, e, h1, h2, h3, h4, h5⟩ := processDU_ok (n := 256) (base := bi * 128 + bj * 8) (stride := 16) (g := g)
    (s := fun y x => dblVal (pixComp data w h 0 (i * 16 + (bi * 8 + y)) (j * 16 + (bj * 8 + x)))) (Or.inr rfl) (by omega)
    (fun y hy' x hx => by rw [hg y hy' x hx]; exact (pixComp_exact _ _ _ _ _ _).1) hy tabs_y hp he
  refine ⟨g', c, w', E, e, h1, ?_, h3, h4, h5⟩
  have := h2.close (t := fun y x => (sample w h data 0 (8 * (2 * i + bi) + y) (8 * (2 * j + bj) + x) : ℝ)) (d := 0.0022) (e' := 1 / 16)
    (fun y _ x _ => by
      have := (pixComp_exact data w h 0 (i * 16 + (bi * 8 + y)) (j * 16 + (bj * 8 + x))).2.1
      have e1 : 8 * (2 * i + bi) + y = i * 16 + (bi * 8 + y) := by ring
      have e2 : 8 * (2 * j + bj) + x = j * 16 + (bj * 8 + x) := by ring
      rw [e1, e2]
      unfold sample
      rw [if_pos rfl]
      exact this) (by norm_num) (by norm_num)
  exact this

include huv in
/-- A block of one of the differences. -/
theorem diff_ok {i j c : ℕ} (hc : c ≠ 0) {pred : Int} (hp : |pred| ≤ 600) {wr : JpgW} {pre : List UInt8} {bits : List Bool}
    (he : Emitted wr pre bits) :
    ∃ g' b w' E, (jpgSub (fnTab 256 fun l => pixComp data w h c (i * 16 + l / 16) (j * 16 + l % 16)) >>= fun su =>
        stbiw_jpg_processDU false su 0 8 (fnTab 64 fuv) pred UVDC_HT UVAC_HT wr) = .ok (fnTab 64 g', b.getD 0 0, w') ∧
      BlockOk w h data uvt c i j b ∧ |b.getD 0 0| ≤ 600 ∧
      Emitted w' pre (bits ++ E) ∧ ∀ rest, decodeBlock uvDC uvAC pred (E ++ rest) = some (b, rest) := by
  rw [jpgSub_ok, ok_bind]
  have ap : ∀ y < 8, ∀ x < 8, Apx (mean4
      (pixComp data w h c (i * 16 + ((0 + y * 8 + x) / 8 * 32 + (0 + y * 8 + x) % 8 * 2) / 16)
        (j * 16 + ((0 + y * 8 + x) / 8 * 32 + (0 + y * 8 + x) % 8 * 2) % 16))
      (pixComp data w h c (i * 16 + ((0 + y * 8 + x) / 8 * 32 + (0 + y * 8 + x) % 8 * 2 + 1) / 16)
        (j * 16 + ((0 + y * 8 + x) / 8 * 32 + (0 + y * 8 + x) % 8 * 2 + 1) % 16))
      (pixComp data w h c (i * 16 + ((0 + y * 8 + x) / 8 * 32 + (0 + y * 8 + x) % 8 * 2 + 16) / 16)
        (j * 16 + ((0 + y * 8 + x) / 8 * 32 + (0 + y * 8 + x) % 8 * 2 + 16) % 16))
      (pixComp data w h c (i * 16 + ((0 + y * 8 + x) / 8 * 32 + (0 + y * 8 + x) % 8 * 2 + 17) / 16)
        (j * 16 + ((0 + y * 8 + x) / 8 * 32 + (0 + y * 8 + x) % 8 * 2 + 17) % 16)))
      (sample w h data c (8 * i + y) (8 * j + x) : ℝ) 128 0.00225 := by
    intro y hy' x hx
    have e1 : (0 + y * 8 + x) / 8 = y := by omega
    have e2 : (0 + y * 8 + x) % 8 = x := by omega
    rw [e1, e2]
    rw [show i * 16 + (y * 32 + x * 2) / 16 = 2 * (8 * i + y) by omega, show i * 16 + (y * 32 + x * 2 + 1) / 16 = 2 * (8 * i + y) by omega,
      show i * 16 + (y * 32 + x * 2 + 16) / 16 = 2 * (8 * i + y) + 1 by omega,
      show i * 16 + (y * 32 + x * 2 + 17) / 16 = 2 * (8 * i + y) + 1 by omega,
      show j * 16 + (y * 32 + x * 2) % 16 = 2 * (8 * j + x) by omega, show j * 16 + (y * 32 + x * 2 + 1) % 16 = 2 * (8 * j + x) + 1 by omega,
      show j * 16 + (y * 32 + x * 2 + 16) % 16 = 2 * (8 * j + x) by omega,
      show j * 16 + (y * 32 + x * 2 + 17) % 16 = 2 * (8 * j + x) + 1 by omega]
    have := mean4_apx (pixComp_exact data w h c (2 * (8 * i + y)) (2 * (8 * j + x))).2.2
      (pixComp_exact data w h c (2 * (8 * i + y)) (2 * (8 * j + x) + 1)).2.2
      (pixComp_exact data w h c (2 * (8 * i + y) + 1) (2 * (8 * j + x))).2.2
      (pixComp_exact data w h c (2 * (8 * i + y) + 1) (2 * (8 * j + x) + 1)).2.2
    unfold sample
    rw [if_neg hc]
    push_cast
    exact this
  generalize hG : (fun l => mean4 (pixComp data w h c (i * 16 + (l / 8 * 32 + l % 8 * 2) / 16) (j * 16 + (l / 8 * 32 + l % 8 * 2) % 16))
      (pixComp data w h c (i * 16 + (l / 8 * 32 + l % 8 * 2 + 1) / 16) (j * 16 + (l / 8 * 32 + l % 8 * 2 + 1) % 16))
      (pixComp data w h c (i * 16 + (l / 8 * 32 + l % 8 * 2 + 16) / 16) (j * 16 + (l / 8 * 32 + l % 8 * 2 + 16) % 16))
      (pixComp data w h c (i * 16 + (l / 8 * 32 + l % 8 * 2 + 17) / 16) (j * 16 + (l / 8 * 32 + l % 8 * 2 + 17) % 16))) = G
  have ap' : ∀ y < 8, ∀ x < 8, Apx (G (0 + y * 8 + x)) (sample w h data c (8 * i + y) (8 * j + x) : ℝ) 128 0.00225 := by
    rw [← hG]
    exact ap
  have ex : ∀ y < 8, ∀ x < 8, Apx (G (0 + y * 8 + x)) (dblVal (G (0 + y * 8 + x))) 129 0 ∧
      |dblVal (G (0 + y * 8 + x)) - (sample w h data c (8 * i + y) (8 * j + x) : ℝ)| ≤ 0.00225 := by
    intro y hy' x hx
    obtain ⟨q, e, h1, h2⟩ := ap' y hy' x hx
    rw [e]
    have := Apx.abs_le h1 h2
    exact ⟨⟨q, rfl, by show |(q : ℝ)| ≤ 129; linarith, by show |(q : ℝ) - q| ≤ 0; simp⟩, h2⟩
  obtain ⟨g', b, w', E, e, h1, h2, h3, h4, h5⟩ := processDU_ok (n := 64) (base := 0) (stride := 8) (g := G)
    (s := fun y x => dblVal (G (0 + y * 8 + x))) (Or.inl rfl) (by norm_num) (fun y hy' x hx => (ex y hy' x hx).1) huv tabs_uv hp he
  exact ⟨g', b, w', E, e, h2.close (fun y hy' x hx => (ex y hy' x hx).2) (by norm_num) (by norm_num), h3, h4, h5⟩

include hd hw hh hb hy huv

/-- One macroblock. -/
theorem jpgMCU_ok {i j : ℕ} (hi : i ≤ 60000) (hj : j ≤ 60000) {s : JpgS} (hs : |s.dcy| ≤ 600 ∧ |s.dcu| ≤ 600 ∧ |s.dcv| ≤ 600)
    {pre : List UInt8} {bits : List Bool} (he : Emitted s.w pre bits) :
    ∃ s' E m, jpgMCU false data w h (fnTab 64 fy) (fnTab 64 fuv) (i * 16) (j * 16) s = .ok s' ∧
      (|s'.dcy| ≤ 600 ∧ |s'.dcu| ≤ 600 ∧ |s'.dcv| ≤ 600) ∧ Emitted s'.w pre (bits ++ E) ∧ McuOk w h data yt uvt i j m ∧
      ∀ rest, decodeMCU (scan3 yt uvt) [s.dcy, s.dcu, s.dcv] (E ++ rest) = some (m, [s'.dcy, s'.dcu, s'.dcv], rest) := by
  obtain ⟨t, e0, ey, eu, ev⟩ := jpgGather_ok hd hw hh hb (y := i * 16) (x := j * 16) (by omega) (by omega)
  unfold jpgMCU
  rw [e0, ok_bind, ey, eu, ev, asInput_map_some, ok_bind, asInput_map_some, ok_bind, asInput_map_some, ok_bind]
  obtain ⟨g1, c1, w1, E1, e1, f1, b1, s1, m1, d1⟩ := lum_ok (i := i) (j := j) (data := data) (w := w) (h := h) hy (bi := 0) (bj := 0) (by norm_num) (by norm_num)
    (g := fun l => pixComp data w h 0 (i * 16 + l / 16) (j * 16 + l % 16)) (fun y hy' x hx => pix_index (by norm_num) (by norm_num) hy' hx) hs.1 he
  rw [show 0 * 128 + 0 * 8 = 0 from rfl] at e1 f1
  rw [e1, ok_bind]
  obtain ⟨g2, c2, w2, E2, e2, f2, b2, s2, m2, d2⟩ := lum_ok (i := i) (j := j) (data := data) (w := w) (h := h) hy (bi := 0) (bj := 1) (by norm_num) (by norm_num)
    (g := g1) (fun y hy' x hx => by rw [f1 _ (by omega)]; exact pix_index (by norm_num) (by norm_num) hy' hx) s1 m1
  rw [show 0 * 128 + 1 * 8 = 8 from rfl] at e2 f2
  rw [e2, ok_bind]
  obtain ⟨g3, c3, w3, E3, e3, f3, b3, s3, m3, d3⟩ := lum_ok (i := i) (j := j) (data := data) (w := w) (h := h) hy (bi := 1) (bj := 0) (by norm_num) (by norm_num)
    (g := g2) (fun y hy' x hx => by rw [f2 _ (by omega), f1 _ (by omega)]; exact pix_index (by norm_num) (by norm_num) hy' hx) s2 m2
  rw [show 1 * 128 + 0 * 8 = 128 from rfl] at e3 f3
  rw [e3, ok_bind]
  obtain ⟨g4, c4, w4, E4, e4, f4, b4, s4, m4, d4⟩ := lum_ok (i := i) (j := j) (data := data) (w := w) (h := h) hy (bi := 1) (bj := 1) (by norm_num) (by norm_num)
    (g := g3) (fun y hy' x hx => by rw [f3 _ (by omega), f2 _ (by omega), f1 _ (by omega)]; exact pix_index (by norm_num) (by norm_num) hy' hx) s3 m3
  rw [show 1 * 128 + 1 * 8 = 136 from rfl] at e4 f4
  rw [e4, ok_bind]
  obtain ⟨g5, bu, w5, E5, e5, b5, s5, m5, d5⟩ := diff_ok (i := i) (j := j) (data := data) (w := w) (h := h) huv (c := 1) (by norm_num) hs.2.1 m4
  obtain ⟨g6, bv, w6, E6, e6, b6, s6, m6, d6⟩ := diff_ok (i := i) (j := j) (data := data) (w := w) (h := h) huv (c := 2) (by norm_num) hs.2.2 m5
  rw [jpgSub_ok, ok_bind] at e5 e6
  rw [jpgSub_ok, ok_bind, jpgSub_ok, ok_bind]
  dsimp only
  rw [e5, ok_bind]
  dsimp only
  rw [e6, ok_bind]
  refine ⟨_, E1 ++ E2 ++ E3 ++ E4 ++ E5 ++ E6, [[c1, c2, c3, c4], [bu], [bv]], rfl, ⟨s4, s5, s6⟩, ?_,
    ⟨c1, c2, c3, c4, bu, bv, rfl, b1, b2, b3, b4, b5, b6⟩, ?_⟩
  · simpa only [List.append_assoc] using m6
  · intro rest
    simp only [scan3, decodeMCU, decodeBlocks, Nat.reduceMul, List.append_assoc, d1, d2, d3, d4, d5, d6, Option.bind_eq_bind,
      Option.bind_some]

/-- What holds after `n` macroblocks. -/
def ScanInv (w h : ℕ) (data yt uvt : List UInt8) (pre : List UInt8) (n : ℕ) (s : JpgS) : Prop :=
  (|s.dcy| ≤ 600 ∧ |s.dcu| ≤ 600 ∧ |s.dcv| ≤ 600) ∧ ∃ bits ms, Emitted s.w pre bits ∧ ms.length = n ∧
    (∀ i j, j < (w + 15) / 16 → i * ((w + 15) / 16) + j < n → McuOk w h data yt uvt i j (ms.getD (i * ((w + 15) / 16) + j) [])) ∧
    ∀ N rest r b, decodeMCUs (scan3 yt uvt) N [s.dcy, s.dcu, s.dcv] rest = some (r, b) →
      decodeMCUs (scan3 yt uvt) (n + N) [0, 0, 0] (bits ++ rest) = some (ms ++ r, b)

theorem scan_step {i j : ℕ} (hi : i ≤ 60000) (hj : j < (w + 15) / 16) (hw' : w ≤ 900000) {s : JpgS} {pre : List UInt8}
    (hs : ScanInv w h data yt uvt pre (i * ((w + 15) / 16) + j) s) :
    Ok (jpgMCU false data w h (fnTab 64 fy) (fnTab 64 fuv) (i * 16) (j * 16) s)
      (ScanInv w h data yt uvt pre (i * ((w + 15) / 16) + j + 1)) := by
  obtain ⟨hs0, bits, ms, h1, h2, h3, h4⟩ := hs
  obtain ⟨s', E, m, e, k1, k2, k3, k4⟩ := jpgMCU_ok hd hw hh hb hy huv hi (by omega : j ≤ 60000) hs0 h1
  refine Ok.of_eq e ⟨k1, bits ++ E, ms ++ [m], k2, by rw [List.length_append, h2]; rfl, ?_, ?_⟩
  · intro i' j' hj' hn
    generalize hW : (w + 15) / 16 = W at *
    by_cases hlt : i' * W + j' < i * W + j
    · rw [List.getD_eq_getElem?_getD, List.getElem?_append_left (by omega), ← List.getD_eq_getElem?_getD]
      exact h3 i' j' hj' hlt
    · have hWp : 0 < W := by omega
      have a1 : (i' * W + j') / W = i' := by
        rw [Nat.mul_comm, Nat.mul_add_div hWp, Nat.div_eq_of_lt hj', Nat.add_zero]
      have a2 : (i * W + j) / W = i := by
        rw [Nat.mul_comm, Nat.mul_add_div hWp, Nat.div_eq_of_lt hj, Nat.add_zero]
      have a3 : i' * W + j' = i * W + j := by omega
      have a4 : i' = i := by rw [← a1, a3, a2]
      subst a4
      have a5 : j' = j := by omega
      subst a5
      rw [List.getD_eq_getElem?_getD, List.getElem?_append_right (by omega), h2, Nat.sub_self]
      exact k3
  · intro N rest r b hr
    rw [List.append_assoc, List.append_assoc, Nat.add_right_comm, Nat.add_assoc]
    refine h4 (N + 1) (E ++ rest) (m :: r) b ?_
    simp only [decodeMCUs, k4 rest, Option.bind_eq_bind, Option.bind_some, hr]

/-- All macroblocks. -/
theorem scan_ok (hw' : w ≤ 900000) (hh' : h ≤ 900000) {s : JpgS} {pre : List UInt8} (hs : ScanInv w h data yt uvt pre 0 s) :
    Ok (forN ((h + 15) / 16) s fun i s => forN ((w + 15) / 16) s fun j s =>
      jpgMCU false data w h (fnTab 64 fy) (fnTab 64 fuv) (i * 16) (j * 16) s)
      (ScanInv w h data yt uvt pre ((h + 15) / 16 * ((w + 15) / 16))) := by
  refine forN_ok (fun i s => ScanInv w h data yt uvt pre (i * ((w + 15) / 16)) s) (by simpa using hs) ?_
  intro i hi s hs
  have : (i + 1) * ((w + 15) / 16) = i * ((w + 15) / 16) + (w + 15) / 16 := by ring
  rw [this]
  refine forN_ok (fun j s => ScanInv w h data yt uvt pre (i * ((w + 15) / 16) + j) s) hs ?_
  intro j hj s hs
  exact scan_step hd hw hh hb hy huv (by omega) hj hw' hs

end

end FlatCV
