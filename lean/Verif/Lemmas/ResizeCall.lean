/-
The whole of `fcv_resize`.
-/
import Verif.Lemmas.ResizeBilin
import Verif.Lemmas.BlurPass
import Verif.Spec.Call

namespace FlatCV

open Model

theorem resizeLoop_ok {w h ow oh : ℕ} {rx ry : ℚ} {d : List UInt8} (how : 0 < ow) (hoh : 0 < oh)
    (hsz : ow * oh * 4 < 4294967296) {F : ℕ → ℕ → ℕ → UInt8}
    (hF : ∀ x < ow, ∀ y < oh, (if rx < 1 ∨ ry < 1 then areaPixel w h rx ry d x y else bilinearPixel w h rx ry d x y) =
      .ok (F x y 0, F x y 1, F x y 2)) {s : Cells UInt8} (hs : s.length = ow * oh * 4) :
    resizeLoop w h ow oh rx ry d s = .ok ((mkImg ow oh 4 (fun x y c => if c < 3 then F x y c else 255)).map some) := by
  have hwle : ow ≤ ow * oh := Nat.le_mul_of_pos_right ow hoh
  have hhle : oh ≤ ow * oh := Nat.le_mul_of_pos_left oh how
  have hlen := mkImg_length ow oh 4 (fun x y c => if c < 3 then F x y c else 255)
  have hst : Filled (mkImg ow oh 4 (fun x y c => if c < 3 then F x y c else 255)) (fun _ => False) s :=
    ⟨by rw [hs, hlen], fun _ _ hf => hf.elim⟩
  unfold resizeLoop
  rw [forU32_eq (by omega)]
  have := Filled.loop2 (n := oh) (m := ow)
    (body := fun out_y out_x out => do
      let (r, g, b) ← (if rx < 1 ∨ ry < 1 then areaPixel w h rx ry d out_x out_y
        else bilinearPixel w h rx ry d out_x out_y)
      let k := u32 (u32 (out_y * ow + out_x) * 4)
      let out ← wr out k r
      let out ← wr out (u32 (k + 1)) g
      let out ← wr out (u32 (k + 2)) b
      wr out (u32 (k + 3)) 255)
    (fun y x k => (y * ow + x) * 4 ≤ k ∧ k ≤ (y * ow + x) * 4 + 3) hst (by
      intro y hy x hx V t ht
      have hlt := idx3_lt (ch := 4) hx hy (show 3 < 4 by omega)
      have hid := idx_lt hx hy
      simp only []
      rw [hF x hx y hy]
      simp only [ok_bind]
      rw [u32_eq (n := y * ow + x) (by omega), u32_eq (n := (y * ow + x) * 4) (by omega),
        u32_eq (n := (y * ow + x) * 4 + 1) (by omega), u32_eq (n := (y * ow + x) * 4 + 2) (by omega),
        u32_eq (n := (y * ow + x) * 4 + 3) (by omega)]
      obtain ⟨a0, a1, a2, a3⟩ := at_mkImg (f := F) hx hy
      refine Ok.bind (ht.wr a0) fun s1 hs1 => ?_
      refine Ok.bind (hs1.wr a1) fun s2 hs2 => ?_
      refine Ok.bind (hs2.wr a2) fun s3 hs3 => ?_
      refine (hs3.wr a3).mono fun s4 hs4 => hs4.mono fun j _ hj => ?_
      rcases hj with h | h
      · exact .inl (.inl (.inl (.inl h)))
      · rcases (show j = (y * ow + x) * 4 ∨ j = (y * ow + x) * 4 + 1 ∨ j = (y * ow + x) * 4 + 2 ∨
          j = (y * ow + x) * 4 + 3 by omega) with h | h | h | h
        · exact .inl (.inl (.inl (.inr h)))
        · exact .inl (.inl (.inr h))
        · exact .inl (.inr h)
        · exact .inr h)
  obtain ⟨t, et, ht⟩ := this
  have := ht.done (by
    intro k hk
    rw [hlen] at hk
    exact .inr (pixel_of hk))
  subst this
  rw [← et]
  exact forN_congr fun y hy t => forU32_eq (by omega) _ _

/-- A factor the function accepts along an axis of length `n`. -/
def Usable (n : ℕ) (r : ℚ) : Prop := 0 < r ∧ Fmt.b64.rnd (n * r) ≤ 4294967295

theorem axis_of {n : ℕ} {r : ℚ} (hn : 0 < n) (hn' : n ≤ 1073741824) (hr : Fmt.b64.Rep r) (hu : Usable n r)
    (h1 : 1 ≤ outDim n r) : Axis n r := by
  refine ⟨hn, hn', hr, hu.1, hu.2, ?_⟩
  unfold outDim at h1
  have : 1 ≤ ⌊Fmt.b64.rnd (n * r)⌋ := by omega
  have := Int.le_floor.1 this
  simpa using this

theorem emax64 : (2 : ℚ) ^ 33 ≤ 2 ^ (Fmt.b64.emax + 1) := by
  have : Fmt.b64.emax + 1 = ((1024 : ℕ) : ℤ) := rfl
  rw [this, zpow_natCast]
  exact pow_le_pow_right₀ (by norm_num) (by norm_num)

theorem usable_mul {n : ℕ} {r : ℚ} (hu : Usable n r) :
    Dbl.mul Fmt.b64 (.fin n) (.fin r) = .fin (Fmt.b64.rnd (n * r)) := by
  have h0 : 0 ≤ Fmt.b64.rnd (n * r) := rnd_nonneg _ (mul_nonneg (Nat.cast_nonneg _) hu.1.le)
  show Fmt.b64.lift (n * r) = _
  unfold Fmt.lift
  rw [if_pos]
  rw [abs_of_nonneg h0]
  have := emax64
  have h2 := hu.2
  norm_num at this
  linarith

theorem not_usable_mul {n : ℕ} {r : ℚ} (h0 : 0 < r) (hu : ¬ Usable n r) :
    aboveU32 (Dbl.mul Fmt.b64 (.fin n) (.fin r)) = true := by
  have h1 : 4294967295 < Fmt.b64.rnd (n * r) := by
    by_contra hc
    exact hu ⟨h0, not_lt.1 hc⟩
  show aboveU32 (Fmt.b64.lift (n * r)) = true
  unfold Fmt.lift
  split_ifs
  · simpa [aboveU32] using h1
  · have : ¬ (n : ℚ) * r < 0 := not_lt.2 (mul_nonneg (Nat.cast_nonneg _) h0.le)
    simp [aboveU32, this]

theorem usable_cast {n : ℕ} {r : ℚ} (hu : Usable n r) :
    castU32 (Fmt.b64.rnd (n * r)) = .ok (outDim n r) := by
  have h0 : 0 ≤ Fmt.b64.rnd (n * r) := rnd_nonneg _ (mul_nonneg (Nat.cast_nonneg _) hu.1.le)
  have f0 : 0 ≤ ⌊Fmt.b64.rnd (n * r)⌋ := Int.floor_nonneg.2 h0
  have f1 : ⌊Fmt.b64.rnd (n * r)⌋ < 4294967296 := Int.floor_lt.2 (by push_cast; linarith [hu.2])
  unfold castU32 outDim
  rw [castInt_ok (by rw [trunc_nonneg h0]; exact f0) (by rw [trunc_nonneg h0]; omega), trunc_nonneg h0]
  rfl

theorem usable_above {n : ℕ} {r : ℚ} (hu : Usable n r) : aboveU32 (.fin (Fmt.b64.rnd (n * r))) = false := by
  simpa [aboveU32] using hu.2

/-- What follows the checks of the factors. -/
def resizeTail (P : Plat) (w h ow oh : ℕ) (rx ry : ℚ) (d : List UInt8) :
    HM (Option (Buf UInt8) × Option (Nat × Nat)) :=
  if ow = 0 ∨ oh = 0 then pure (none, some (ow, oh))
  else if ow > P.szMax / oh then pure (none, some (ow, oh))
  else
    let out_img_pixels := P.sz (ow * oh)
    if out_img_pixels > P.szMax / 4 then pure (none, some (ow, oh))
    else do
      match ← malloc UInt8 (P.sz (out_img_pixels * 4)) with
      | none => pure (none, some (ow, oh))
      | some b => do
        let c ← use [b.id] (resizeLoop w h ow oh rx ry d b.cells)
        pure (some { b with cells := c }, some (ow, oh))

theorem resize_unfold (P : Plat) {w h : ℕ} (hw : 0 < w) (hh : 0 < h) {rx ry : ℚ} (ux : Usable w rx) (uy : Usable h ry)
    (d : List UInt8) :
    fcv_resize P w h (.fin rx) (.fin ry) (some d) = resizeTail P w h (outDim w rx) (outDim h ry) rx ry d := by
  unfold fcv_resize
  simp only []
  rw [if_neg (by omega)]
  rw [if_neg (by rintro (h | h); exact absurd ux.1 (not_lt.2 h); exact absurd uy.1 (not_lt.2 h))]
  rw [usable_mul ux, usable_mul uy, usable_above ux, usable_above uy]
  simp only [Bool.or_false, Bool.false_eq_true, if_false, Dbl.toU32]
  rw [usable_cast ux, usable_cast uy]
  rfl

theorem resizeTail_fits {P : Plat} {w h ow oh : ℕ} (how : 0 < ow) (hoh : 0 < oh) (hs : ow * oh * 4 ≤ P.szMax)
    {rx ry : ℚ} {d : List UInt8} : resizeTail P w h ow oh rx ry d = (do
      match ← malloc UInt8 (ow * oh * 4) with
      | none => pure (none, some (ow, oh))
      | some b => do
        let c ← use [b.id] (resizeLoop w h ow oh rx ry d b.cells)
        pure (some { b with cells := c }, some (ow, oh))) := by
  unfold resizeTail
  have g1 : ¬ ow > P.szMax / oh := P.guard_of_mul_le hoh (by omega)
  have g2 : P.sz (ow * oh) = ow * oh := P.sz_eq' (by omega)
  have g4 : P.sz (ow * oh * 4) = ow * oh * 4 := P.sz_eq' hs
  rw [if_neg (by omega), if_neg g1]
  simp only [g2, g4]
  rw [if_neg (by omega)]

theorem resize_yields {P : Plat} {w h : ℕ} (hw : 0 < w) (hh : 0 < h) {rx ry : ℚ} (ux : Usable w rx) (uy : Usable h ry)
    (hx : 0 < outDim w rx) (hy : 0 < outDim h ry) (hs : outDim w rx * outDim h ry * 4 ≤ P.szMax) {d out : List UInt8}
    (hl : ∀ s : Cells UInt8, s.length = outDim w rx * outDim h ry * 4 →
      resizeLoop w h (outDim w rx) (outDim h ry) rx ry d s = .ok (out.map some)) :
    YieldsDims (fcv_resize P w h (.fin rx) (.fin ry) (some d)) (outDim w rx) (outDim h ry) out := by
  intro hp
  have hl' := hl (List.replicate (outDim w rx * outDim h ry * 4) none) (by simp)
  unfold HOk
  rw [resize_unfold P hw hh ux uy, resizeTail_fits hx hy hs]
  by_cases f0 : hp.fails hp.next
  · simp [hm_bind, malloc, f0, hm_pure, OutOfMemory]
    exact ⟨hp.next, le_refl _, le_refl _, f0⟩
  · simp [hm_bind, malloc, f0, use, hl', hm_pure, FreshResult, Except.map]

/-! ### What the pixels of the result say -/

theorem area_out {w h : ℕ} {d : List UInt8} (hd : d.length = w * h * 4) (hsz : w * h * 4 < 4294967296) {rx ry : ℚ}
    (Ax : Axis w rx) (Ay : Axis h ry) : ∃ F : ℕ → ℕ → ℕ → UInt8, ∀ x < outDim w rx, ∀ y < outDim h ry,
      areaPixel w h rx ry d x y = .ok (F x y 0, F x y 1, F x y 2) ∧
      ∃ a b i j c e k l, Win w rx x a b i j ∧ Win h ry y c e k l ∧
      (0 < areaSum w h a b c e (fun _ _ => 1) → ∀ q < 3,
        RoundsTo (areaMean w h a b c e (fun x y => ((px w 4 d x y q).toNat : ℚ))) (F x y q)) ∧
      (areaSum w h a b c e (fun _ _ => 1) = 0 → ∀ q < 3, F x y q = 0) := by
  have key : ∀ x y, ∃ f : ℕ → UInt8, x < outDim w rx → y < outDim h ry →
      areaPixel w h rx ry d x y = .ok (f 0, f 1, f 2) ∧
      ∃ a b i j c e k l, Win w rx x a b i j ∧ Win h ry y c e k l ∧
      (0 < areaSum w h a b c e (fun _ _ => 1) → ∀ q < 3,
        RoundsTo (areaMean w h a b c e (fun x y => ((px w 4 d x y q).toNat : ℚ))) (f q)) ∧
      (areaSum w h a b c e (fun _ _ => 1) = 0 → ∀ q < 3, f q = 0) := by
    intro x y
    by_cases hx : x < outDim w rx
    · by_cases hy : y < outDim h ry
      · obtain ⟨a, b, i, j, Wx⟩ := window_ok Ax hx
        obtain ⟨c, e, k, l, Wy⟩ := window_ok Ay hy
        obtain ⟨r, g, bl, e1, e2, e3⟩ := areaPixel_ok hd hsz Wx Wy
        refine ⟨fun q => if q = 0 then r else if q = 1 then g else bl, fun _ _ => ⟨by simpa using e1, a, b, i, j, c, e, k, l,
          Wx, Wy, e2, fun hz q hq => ?_⟩⟩
        obtain ⟨z0, z1, z2⟩ := e3 hz
        subst z0 z1 z2
        simp
      · exact ⟨fun _ => 0, fun _ h => absurd h hy⟩
    · exact ⟨fun _ => 0, fun h => absurd h hx⟩
  choose F hF using key
  exact ⟨F, fun x hx y hy => hF x y hx hy⟩

theorem bilin_out {w h : ℕ} {d : List UInt8} (hd : d.length = w * h * 4) (hsz : w * h * 4 < 4294967296) {rx ry : ℚ}
    (Ax : Axis w rx) (Ay : Axis h ry) : ∃ F : ℕ → ℕ → ℕ → UInt8, ∀ x < outDim w rx, ∀ y < outDim h ry,
      bilinearPixel w h rx ry d x y = .ok (F x y 0, F x y 1, F x y 2) ∧
      ∃ tx ty, |tx - posn rx x| ≤ 8 * w / 2 ^ 53 ∧ |ty - posn ry y| ≤ 8 * h / 2 ^ 53 ∧ ∀ q < 3,
        RoundsTo (lerp2 w h (fun x y => ((px w 4 d x y q).toNat : ℚ)) tx ty) (F x y q) := by
  have key : ∀ x y, ∃ f : ℕ → UInt8, x < outDim w rx → y < outDim h ry →
      bilinearPixel w h rx ry d x y = .ok (f 0, f 1, f 2) ∧
      ∃ tx ty, |tx - posn rx x| ≤ 8 * w / 2 ^ 53 ∧ |ty - posn ry y| ≤ 8 * h / 2 ^ 53 ∧ ∀ q < 3,
        RoundsTo (lerp2 w h (fun x y => ((px w 4 d x y q).toNat : ℚ)) tx ty) (f q) := by
    intro x y
    by_cases hx : x < outDim w rx
    · by_cases hy : y < outDim h ry
      · obtain ⟨x0, x1, dx, tx, Fx⟩ := frac_ok Ax hx
        obtain ⟨y0, y1, dy, ty, Fy⟩ := frac_ok Ay hy
        obtain ⟨r, g, b, e1, e2⟩ := bilinearPixel_ok hd hsz Fx Fy
        exact ⟨fun q => if q = 0 then r else if q = 1 then g else b, fun _ _ => ⟨by simpa using e1, tx, ty, Fx.err, Fy.err, e2⟩⟩
      · exact ⟨fun _ => 0, fun _ h => absurd h hy⟩
    · exact ⟨fun _ => 0, fun h => absurd h hx⟩
  choose F hF using key
  exact ⟨F, fun x hx y hy => hF x y hx hy⟩

theorem close_of {n : ℕ} (hn : n ≤ 1073741824) {x y k : ℚ} (hk : k ≤ 16) (h : |x - y| ≤ k * n / 2 ^ 53) : Close x y := by
  have hn' : (n : ℚ) ≤ 1073741824 := by exact_mod_cast hn
  have hn0 : (0 : ℚ) ≤ n := Nat.cast_nonneg _
  unfold Close
  refine h.trans ?_
  have : k * n ≤ 16 * 1073741824 := by nlinarith
  rw [div_le_div_iff₀ (by positivity) (by positivity)]
  norm_num
  linarith

/-- Bytes beyond the reach of a 32-bit index are never written. -/
theorem resizeLoop_beyond {w h ow oh : ℕ} {rx ry : ℚ} {d : List UInt8} {s : Cells UInt8} :
    Part (resizeLoop w h ow oh rx ry d s) (fun t => ∀ i, 4294967296 ≤ i → t[i]? = s[i]?) := by
  have hwr : ∀ (t : Cells UInt8) (k : ℕ) (v : UInt8), k < 4294967296 →
      Part (wr t k v) (fun t' => ∀ i, 4294967296 ≤ i → t'[i]? = t[i]?) := by
    intro t k v hk
    unfold wr
    split_ifs
    · refine Part.pure' fun i hi => ?_
      rw [List.getElem?_set_ne (by omega)]
    · exact Part.error
  have hu : ∀ n, u32 n < 4294967296 := u32_lt
  unfold resizeLoop
  by_cases hn : oh < 4294967296
  · rw [forU32_eq hn]
    refine Part.forN (I := fun _ t => ∀ i, 4294967296 ≤ i → t[i]? = s[i]?) (fun i _ => rfl) fun y _ t ht => ?_
    by_cases hm : ow < 4294967296
    · rw [forU32_eq hm]
      refine Part.forN (I := fun _ t => ∀ i, 4294967296 ≤ i → t[i]? = s[i]?) ht fun x _ t ht => ?_
      refine Part.bind (Part.trivial _) fun p _ => ?_
      refine Part.bind (hwr _ _ _ (hu _)) fun t1 h1 => ?_
      refine Part.bind (hwr _ _ _ (hu _)) fun t2 h2 => ?_
      refine Part.bind (hwr _ _ _ (hu _)) fun t3 h3 => ?_
      refine (hwr _ _ _ (hu _)).mono fun t4 h4 i hi => ?_
      rw [h4 i hi, h3 i hi, h2 i hi, h1 i hi, ht i hi]
    · intro r hr
      exact absurd hr (forU32_ne_ok (by omega) _ _ _)
  · intro r hr
    exact absurd hr (forU32_ne_ok (by omega) _ _ _)

end FlatCV
