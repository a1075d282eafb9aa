/-
C24–C27, C86–C88: resizing.
-/
import Verif.Lemmas.ResizeCall
import Verif.Lemmas.ResizeSpec
import Verif.Spec.Geometry
import Verif.Props.Blur

namespace FlatCV.Props
open FlatCV Model Spec Finset

variable {P : Plat} {w h : Nat} {d : List UInt8} {rx ry : ℚ}

/-- A resize the function should carry out: a valid image and double factors for which the output
has at least one pixel and fits memory. -/
structure Resizable (P : Plat) (w h : Nat) (d : List UInt8) (rx ry : ℚ) : Prop where
  im : Img P w h 4 d
  rep_x : Fmt.b64.Rep rx
  rep_y : Fmt.b64.Rep ry
  use_x : Usable w rx
  use_y : Usable h ry
  pos_x : 0 < outDim w rx
  pos_y : 0 < outDim h ry
  fits : outDim w rx * outDim h ry * 4 ≤ P.szMax

/-- A resize within reach of the 32-bit byte indices of the code. -/
structure Fit (P : Plat) (w h : Nat) (d : List UInt8) (rx ry : ℚ) : Prop extends Resizable P w h d rx ry where
  src : w * h * 4 < 4294967296
  dst : outDim w rx * outDim h ry * 4 < 4294967296

theorem fit_axes (F : Fit P w h d rx ry) : Axis w rx ∧ Axis h ry := by
  have hw := F.im.w_pos
  have hh := F.im.h_pos
  have h1 : w ≤ w * h := Nat.le_mul_of_pos_right w hh
  have h2 : h ≤ w * h := Nat.le_mul_of_pos_left h hw
  have := F.src
  exact ⟨axis_of hw (by omega) F.rep_x F.use_x F.pos_x, axis_of hh (by omega) F.rep_y F.use_y F.pos_y⟩

/-! ### C24 -/

/-- NULL data, an empty image, a factor that is not a positive finite number, or a product above
`2^32 - 1`: NULL, with nothing allocated and no dimensions stored. -/
theorem resize_rejects {D : Option (List UInt8)} {fx fy : Dbl} {hp : Heap}
    (hbad : D = none ∨ w = 0 ∨ h = 0 ∨ (¬ ∃ r, fx = .fin r ∧ Usable w r) ∨ (¬ ∃ r, fy = .fin r ∧ Usable h r)) :
    fcv_resize P w h fx fy D hp = .ok ((none, none), hp) := by
  unfold fcv_resize
  cases D with
  | none => rfl
  | some d =>
    simp only []
    by_cases hz : w = 0 ∨ h = 0
    · rw [if_pos hz]; rfl
    · rw [if_neg hz]
      have hb : (¬ ∃ r, fx = .fin r ∧ Usable w r) ∨ (¬ ∃ r, fy = .fin r ∧ Usable h r) := by
        rcases hbad with h | h | h | h
        · cases h
        · exact absurd (.inl h) hz
        · exact absurd (.inr h) hz
        · exact h
      cases fx with
      | nan => rfl
      | inf s => rfl
      | fin rx =>
        cases fy with
        | nan => rfl
        | inf s => rfl
        | fin ry =>
          simp only []
          by_cases h0 : rx ≤ 0 ∨ ry ≤ 0
          · rw [if_pos h0]; rfl
          · rw [if_neg h0]
            push Not at h0
            rw [if_pos]
            · rfl
            · rcases hb with hb | hb
              · rw [not_usable_mul h0.1 (fun hu => hb ⟨rx, rfl, hu⟩), Bool.true_or]
              · rw [not_usable_mul h0.2 (fun hu => hb ⟨ry, rfl, hu⟩), Bool.or_true]

/-- An output without pixels is NULL. -/
theorem resize_empty (hw : 0 < w) (hh : 0 < h) (ux : Usable w rx) (uy : Usable h ry)
    (hz : outDim w rx = 0 ∨ outDim h ry = 0) (hp : Heap) :
    fcv_resize P w h (.fin rx) (.fin ry) (some d) hp = .ok ((none, some (outDim w rx, outDim h ry)), hp) := by
  rw [resize_unfold P hw hh ux uy]
  unfold resizeTail
  rw [if_pos hz]
  rfl

theorem outDim_lt {n : ℕ} {r : ℚ} (hu : Usable n r) : outDim n r < 4294967296 := by
  unfold outDim
  have f1 : ⌊Fmt.b64.rnd (n * r)⌋ < 4294967296 := Int.floor_lt.2 (by push_cast; linarith [hu.2])
  omega

/-- An output too large for memory is NULL. -/
theorem resize_too_large (hw : 0 < w) (hh : 0 < h) (ux : Usable w rx) (uy : Usable h ry)
    (hz : P.szMax < outDim w rx * outDim h ry * 4) (hp : Heap) :
    fcv_resize P w h (.fin rx) (.fin ry) (some d) hp = .ok ((none, some (outDim w rx, outDim h ry)), hp) := by
  rw [resize_unfold P hw hh ux uy]
  unfold resizeTail
  by_cases h0 : outDim w rx = 0 ∨ outDim h ry = 0
  · rw [if_pos h0]; rfl
  · rw [if_neg h0]
    by_cases h1 : outDim w rx > P.szMax / outDim h ry
    · rw [if_pos h1]; rfl
    · rw [if_neg h1]
      have h2 : outDim w rx * outDim h ry ≤ P.szMax := by
        have : outDim w rx * outDim h ry ≤ P.szMax / outDim h ry * outDim h ry := Nat.mul_le_mul_right _ (not_lt.1 h1)
        exact this.trans (Nat.div_mul_le_self _ _)
      simp only [P.sz_eq' h2]
      rw [if_pos (by omega)]
      rfl

theorem wr_length {s t : Cells UInt8} {k : ℕ} {v : UInt8} (e : wr s k v = .ok t) : t.length = s.length := by
  unfold wr at e
  split_ifs at e
  cases e
  simp

theorem resizeLoop_length {ow oh : ℕ} {s : Cells UInt8} :
    Part (resizeLoop w h ow oh rx ry d s) (fun t : Cells UInt8 => t.length = s.length) := by
  unfold resizeLoop
  by_cases hn : oh < 4294967296
  · rw [forU32_eq hn]
    refine Part.forN (I := fun _ (t : Cells UInt8) => t.length = s.length) rfl fun y _ t ht => ?_
    by_cases hm : ow < 4294967296
    · rw [forU32_eq hm]
      refine Part.forN (I := fun _ (t : Cells UInt8) => t.length = s.length) ht fun x _ t ht => ?_
      refine Part.bind (Part.trivial _) fun p _ => ?_
      refine Part.bind (P := fun (t1 : Cells UInt8) => t1.length = s.length) (fun t1 h1 => (wr_length h1).trans ht) fun t1 h1 => ?_
      refine Part.bind (P := fun (t1 : Cells UInt8) => t1.length = s.length) (fun t2 h2 => (wr_length h2).trans h1) fun t2 h2 => ?_
      refine Part.bind (P := fun (t1 : Cells UInt8) => t1.length = s.length) (fun t3 h3 => (wr_length h3).trans h2) fun t3 h3 => ?_
      exact fun t4 h4 => (wr_length h4).trans h3
    · intro r hr
      exact absurd hr (forU32_ne_ok (by omega) _ _ _)
  · intro r hr
    exact absurd hr (forU32_ne_ok (by omega) _ _ _)

/-- Whatever the arguments, a non-NULL result has the size of the truncated products. -/
theorem resize_dims {D : Option (List UInt8)} {fx fy : Dbl} {hp hp' : Heap} {b : Buf UInt8} {S : Option (ℕ × ℕ)}
    (e : fcv_resize P w h fx fy D hp = .ok ((some b, S), hp')) :
    ∃ rx ry, fx = .fin rx ∧ fy = .fin ry ∧ Usable w rx ∧ Usable h ry ∧ 0 < outDim w rx ∧ 0 < outDim h ry ∧
      S = some (outDim w rx, outDim h ry) ∧ b.cells.length = outDim w rx * outDim h ry * 4 := by
  by_cases hbad : D = none ∨ w = 0 ∨ h = 0 ∨ (¬ ∃ r, fx = .fin r ∧ Usable w r) ∨ (¬ ∃ r, fy = .fin r ∧ Usable h r)
  · rw [resize_rejects hbad] at e
    cases e
  · push Not at hbad
    obtain ⟨hD, hw, hh, ⟨rx, rfl, ux⟩, ⟨ry, rfl, uy⟩⟩ := hbad
    cases D with
    | none => exact absurd rfl hD
    | some d =>
      by_cases hz : outDim w rx = 0 ∨ outDim h ry = 0
      · rw [resize_empty (by omega) (by omega) ux uy hz] at e
        cases e
      · by_cases hl : P.szMax < outDim w rx * outDim h ry * 4
        · rw [resize_too_large (by omega) (by omega) ux uy hl] at e
          cases e
        · refine ⟨rx, ry, rfl, rfl, ux, uy, by omega, by omega, ?_⟩
          rw [resize_unfold P (by omega) (by omega) ux uy, resizeTail_fits (by omega) (by omega) (by omega)] at e
          by_cases f0 : hp.fails hp.next
          · simp [hm_bind, malloc, f0, hm_pure] at e
          · rcases hl : resizeLoop w h (outDim w rx) (outDim h ry) rx ry d
              (List.replicate (outDim w rx * outDim h ry * 4) none) with f | c
            · simp [hm_bind, malloc, f0, use, hl, Except.map] at e
            · simp [hm_bind, malloc, f0, use, hl, hm_pure, Except.map] at e
              obtain ⟨⟨rfl, rfl⟩, -⟩ := e
              refine ⟨rfl, ?_⟩
              have := resizeLoop_length c hl
              simpa using this

/-! ### C86: what the pixels are -/

theorem dims_cast (ow oh : ℕ) (F : ℕ → ℕ → ℕ → UInt8) {x y c : ℕ} (hx : x < ow) (hy : y < oh) (hc : c < 3) :
    px ow 4 (mkImg ow oh 4 (fun x y c => if c < 3 then F x y c else 255)) x y c = F x y c := by
  rw [px_mkImg hx hy (by omega), if_pos hc]

theorem dims_alpha (ow oh : ℕ) (F : ℕ → ℕ → ℕ → UInt8) {x y : ℕ} (hx : x < ow) (hy : y < oh) :
    px ow 4 (mkImg ow oh 4 (fun x y c => if c < 3 then F x y c else 255)) x y 3 = 255 := by
  rw [px_mkImg hx hy (by omega), if_neg (by omega)]

theorem resize_with (F : Fit P w h d rx ry) {G : ℕ → ℕ → ℕ → UInt8}
    (hG : ∀ x < outDim w rx, ∀ y < outDim h ry, (if rx < 1 ∨ ry < 1 then areaPixel w h rx ry d x y
      else bilinearPixel w h rx ry d x y) = .ok (G x y 0, G x y 1, G x y 2)) :
    YieldsDims (fcv_resize P w h (.fin rx) (.fin ry) (some d)) (outDim w rx) (outDim h ry)
      (mkImg (outDim w rx) (outDim h ry) 4 (fun x y c => if c < 3 then G x y c else 255)) :=
  resize_yields F.im.w_pos F.im.h_pos F.use_x F.use_y F.pos_x F.pos_y F.fits
    (fun _ hs => resizeLoop_ok F.pos_x F.pos_y F.dst hG hs)

/-- Enlarging in both directions interpolates bilinearly at the centres of the output pixels. -/
theorem resize_enlarge (F : Fit P w h d rx ry) (h1 : 1 ≤ rx) (h2 : 1 ≤ ry) :
    ∃ out, YieldsDims (fcv_resize P w h (.fin rx) (.fin ry) (some d)) (outDim w rx) (outDim h ry) out ∧
      Interpolated rx ry w h d (outDim w rx) (outDim h ry) out := by
  obtain ⟨Ax, Ay⟩ := fit_axes F
  obtain ⟨G, hG⟩ := bilin_out F.im.len F.src Ax Ay
  refine ⟨_, resize_with F (G := G) (fun x hx y hy => ?_), mkImg_length _ _ _ _, fun x hx y hy => ⟨dims_alpha _ _ _ hx hy, ?_⟩⟩
  · rw [if_neg (by push Not; exact ⟨h1, h2⟩)]
    exact (hG x hx y hy).1
  · obtain ⟨-, tx, ty, e1, e2, e3⟩ := hG x hx y hy
    refine ⟨tx, ty, close_of Ax.n_le (by norm_num) e1, close_of Ay.n_le (by norm_num) e2, fun c hc => ?_⟩
    rw [dims_cast _ _ _ hx hy hc]
    exact e3 c hc

/-- Shrinking in a direction, with both factors below 2, averages over the footprint of the output
pixel — moved half a source pixel to the left and to the top. -/
theorem resize_shrink_partial (F : Fit P w h d rx ry) (h1 : rx < 1 ∨ ry < 1) (h2 : rx < 2) (h3 : ry < 2) :
    ∃ out, YieldsDims (fcv_resize P w h (.fin rx) (.fin ry) (some d)) (outDim w rx) (outDim h ry) out ∧
      AreaAveraged (1 / 2) rx ry w h d (outDim w rx) (outDim h ry) out := by
  obtain ⟨Ax, Ay⟩ := fit_axes F
  obtain ⟨G, hG⟩ := area_out F.im.len F.src Ax Ay
  refine ⟨_, resize_with F (G := G) (fun x hx y hy => ?_), mkImg_length _ _ _ _, fun x hx y hy => ⟨dims_alpha _ _ _ hx hy, ?_⟩⟩
  · rw [if_pos h1]
    exact (hG x hx y hy).1
  · obtain ⟨-, a, b, i, j, c, e, k, l, Wx, Wy, e1, -⟩ := hG x hx y hy
    have hp : 0 < areaSum w h a b c e (fun _ _ => 1) := by
      rw [areaSum_one]
      exact mul_pos (overlap_sum_pos Wx.lt (Wx.b_pos Ax h2) Wx.lt_n Ax.n_pos)
        (overlap_sum_pos Wy.lt (Wy.b_pos Ay h3) Wy.lt_n Ay.n_pos)
    refine ⟨a, b, c, e, close_of Ax.n_le (by norm_num) Wx.err_a, close_of Ax.n_le (by norm_num) Wx.err_b,
      close_of Ay.n_le (by norm_num) Wy.err_a, close_of Ay.n_le (by norm_num) Wy.err_b, hp, fun q hq => ?_⟩
    rw [dims_cast _ _ _ hx hy hq]
    exact e1 hp q hq

/-- Whatever the factors, no access is out of bounds and the result is fully initialised. -/
theorem resize_safe (F : Fit P w h d rx ry) :
    ∃ out, YieldsDims (fcv_resize P w h (.fin rx) (.fin ry) (some d)) (outDim w rx) (outDim h ry) out ∧
      out.length = outDim w rx * outDim h ry * 4 := by
  obtain ⟨Ax, Ay⟩ := fit_axes F
  by_cases h1 : rx < 1 ∨ ry < 1
  · obtain ⟨G, hG⟩ := area_out F.im.len F.src Ax Ay
    refine ⟨_, resize_with F (G := G) (fun x hx y hy => ?_), mkImg_length _ _ _ _⟩
    rw [if_pos h1]
    exact (hG x hx y hy).1
  · push Not at h1
    obtain ⟨out, hy, ho⟩ := resize_enlarge F h1.1 h1.2
    exact ⟨out, hy, ho.1⟩

/-- The result is determined. -/
theorem yieldsDims_unique {m : HM (Option (Buf UInt8) × Option (Nat × Nat))} {ow oh ow' oh' : ℕ} {a b : List UInt8}
    (ha : YieldsDims m ow oh a) (hb : YieldsDims m ow' oh' b) : a = b ∧ ow = ow' ∧ oh = oh' := by
  obtain ⟨r, h', e, hq⟩ := ha Heap.fresh
  obtain ⟨r', h'', e', hq'⟩ := hb Heap.fresh
  rw [e] at e'
  cases e'
  obtain ⟨d1, q1⟩ := hq
  obtain ⟨d2, q2⟩ := hq'
  rw [d1] at d2
  cases d2
  refine ⟨?_, rfl, rfl⟩
  cases hr : r.1 with
  | none =>
    rw [hr] at q1
    obtain ⟨_, _, _, i, _, _, hi⟩ := q1
    cases hi
  | some buf =>
    rw [hr] at q1 q2
    exact map_some_inj (q1.2.symm.trans q2.2)

/-! ### C25 -/

theorem outDim_one {n : ℕ} (hn : n < 4294967296) : outDim n 1 = n := by
  unfold outDim
  rw [mul_one]
  have : Fmt.b64.rnd ((n : ℤ) : ℚ) = ((n : ℤ) : ℚ) := rnd64_int (by
    rw [abs_of_nonneg (by positivity)]
    have : (n : ℤ) ≤ 9007199254740992 := by omega
    exact_mod_cast this)
  rw [show ((n : ℕ) : ℚ) = ((n : ℤ) : ℚ) by simp, this, Int.floor_intCast]
  simp

theorem usable_one {n : ℕ} (hn : n < 4294967296) : Usable n 1 := by
  refine ⟨by norm_num, ?_⟩
  rw [mul_one]
  have : Fmt.b64.rnd ((n : ℤ) : ℚ) = ((n : ℤ) : ℚ) := rnd64_int (by
    rw [abs_of_nonneg (by positivity)]
    have : (n : ℤ) ≤ 9007199254740992 := by omega
    exact_mod_cast this)
  rw [show ((n : ℕ) : ℚ) = ((n : ℤ) : ℚ) by simp, this]
  have : (n : ℤ) ≤ 4294967295 := by omega
  exact_mod_cast this

theorem rep_one : Fmt.b64.Rep 1 := by simpa using rep_inv_pow (k := 0) (by norm_num)

theorem fit_one (im : Img P w h 4 d) (hs : w * h * 4 < 4294967296) : Fit P w h d 1 1 := by
  have hw := im.w_u32
  have hh := im.h_u32
  have l := im.len
  have s := im.size
  unfold IsU32 at hw hh
  refine ⟨⟨im, rep_one, rep_one, usable_one hw, usable_one hh, ?_, ?_, ?_⟩, hs, ?_⟩
  · rw [outDim_one hw]; exact im.w_pos
  · rw [outDim_one hh]; exact im.h_pos
  · rw [outDim_one hw, outDim_one hh]; omega
  · rw [outDim_one hw, outDim_one hh]; exact hs

theorem val_range (w : ℕ) (d : List UInt8) (x y c : ℕ) : 0 ≤ ((px w 4 d x y c).toNat : ℚ) ∧ ((px w 4 d x y c).toNat : ℚ) ≤ 255 := by
  have h : (px w 4 d x y c).toNat ≤ 255 := by have := (px w 4 d x y c).toNat_lt; omega
  exact ⟨Nat.cast_nonneg _, by exact_mod_cast h⟩

/-- Factor 1 in both directions keeps the colours and makes the image opaque. -/
theorem resize_identity (im : Img P w h 4 d) (hs : w * h * 4 < 4294967296) :
    YieldsDims (fcv_resize P w h (.fin 1) (.fin 1) (some d)) w h
      (mkImg w h 4 fun x y c => if c < 3 then px w 4 d x y c else 255) := by
  obtain ⟨out, hy, hl, ho⟩ := resize_enlarge (fit_one im hs) (le_refl _) (le_refl _)
  rw [outDim_one im.w_u32, outDim_one im.h_u32] at hy hl ho
  have : out = mkImg w h 4 fun x y c => if c < 3 then px w 4 d x y c else 255 := by
    refine img_ext hl (mkImg_length _ _ _ _) fun x y c hx hy hc => ?_
    obtain ⟨ha, tx, ty, h1, h2, h3⟩ := ho x hx y hy
    rw [px_mkImg hx hy hc]
    by_cases hc3 : c < 3
    · rw [if_pos hc3]
      refine (h3 c hc3).eq ?_
      have p1 : posn 1 x = x := by unfold posn; ring
      have p2 : posn 1 y = y := by unfold posn; ring
      unfold Close at h1 h2
      rw [p1] at h1
      rw [p2] at h2
      have k1 := lerp_near hx (v := fun x' => ((px w 4 d x' y c).toNat : ℚ)) (fun i => val_range w d i y c)
        (h1.trans (by norm_num))
      have k2 := lerp_near hy (v := fun y' => lerp w (fun x' => ((px w 4 d x' y' c).toNat : ℚ)) tx)
        (fun i => lerp_range im.w_pos (fun j => val_range w d j i c) tx) (h2.trans (by norm_num))
      unfold lerp2
      have m1 : 255 * |tx - x| ≤ 255 * (1 / 2 ^ 16) := mul_le_mul_of_nonneg_left h1 (by norm_num)
      have m2 : 255 * |ty - y| ≤ 255 * (1 / 2 ^ 16) := mul_le_mul_of_nonneg_left h2 (by norm_num)
      have k1' := abs_le.1 (k1.trans m1)
      have k2' := abs_le.1 (k2.trans m2)
      rw [abs_le]
      norm_num at k1' k2' ⊢
      constructor <;> linarith [k1'.1, k1'.2, k2'.1, k2'.2]
    · rw [if_neg hc3, show c = 3 by omega]
      exact ha
  rw [← this]
  exact hy

/-! ### C26 -/

/-- Source pixels along an axis that an output pixel may depend on. -/
def NearBy (r : ℚ) (o s : ℕ) : Prop := |(s : ℚ) - posn r o| ≤ 1 / (2 * r) + 5 / 4

/-- Every channel of every output pixel lies between the extremes of that channel over the nearby
source pixels. -/
def BetweenSources (rx ry : ℚ) (w h : ℕ) (d : List UInt8) (ow oh : ℕ) (out : List UInt8) : Prop :=
  ∀ x < ow, ∀ y < oh, ∀ c < 3, ∀ lo hi : ℕ,
    (∀ x' < w, ∀ y' < h, NearBy rx x x' → NearBy ry y y' → lo ≤ (px w 4 d x' y' c).toNat ∧ (px w 4 d x' y' c).toNat ≤ hi) →
    lo ≤ (px ow 4 out x y c).toNat ∧ (px ow 4 out x y c).toNat ≤ hi

theorem posn_range {n : ℕ} {r : ℚ} (A : Axis n r) {o : ℕ} (ho : o < outDim n r) {t : ℚ} (ht : Close t (posn r o)) :
    -1 ≤ t ∧ t ≤ n := by
  have he := A.end_le ho
  have hn := A.nq
  have hn' := A.nq'
  have hr := A.r_pos
  unfold Close at ht
  rw [abs_le] at ht
  have p0 : 0 ≤ ((o : ℚ) + 1 / 2) / r := by positivity
  have p1 : ((o : ℚ) + 1 / 2) / r ≤ ((o : ℚ) + 1) / r := div_le_div_of_nonneg_right (by norm_num) hr.le
  unfold posn at ht
  constructor
  · linarith [ht.1]
  · linarith [ht.2]

theorem interpolated_between {ow oh : ℕ} {out : List UInt8} (Ax : Axis w rx) (Ay : Axis h ry)
    (how : ow = outDim w rx) (hoh : oh = outDim h ry) (hI : Interpolated rx ry w h d ow oh out) :
    BetweenSources rx ry w h d ow oh out := by
  subst how hoh
  intro x hx y hy c hc lo hi hb
  obtain ⟨-, tx, ty, h1, h2, h3⟩ := hI.2 x hx y hy
  have near : ∀ {n : ℕ} {r : ℚ}, Axis n r → ∀ {o s : ℕ} {t : ℚ}, Close t (posn r o) → |(s : ℚ) - t| ≤ 1 → NearBy r o s := by
    intro n r A o s t hc hs
    unfold Close at hc
    unfold NearBy
    have : 0 < 1 / (2 * r) := by have := A.r_pos; positivity
    have e : (s : ℚ) - posn r o = (s - t) + (t - posn r o) := by ring
    rw [e]
    refine (abs_add_le _ _).trans ?_
    norm_num at hc
    linarith
  have kx := posn_range Ax hx h1
  have ky := posn_range Ay hy h2
  have key : (lo : ℚ) ≤ lerp2 w h (fun x' y' => ((px w 4 d x' y' c).toNat : ℚ)) tx ty ∧
      lerp2 w h (fun x' y' => ((px w 4 d x' y' c).toNat : ℚ)) tx ty ≤ hi := by
    unfold lerp2
    refine lerp_bounds Ay.n_pos ky.1 ky.2 fun y' hy' hn => ?_
    refine lerp_bounds Ax.n_pos kx.1 kx.2 fun x' hx' hm => ?_
    have := hb x' hx' y' hy' (near Ax h1 hm) (near Ay h2 hn)
    dsimp only
    exact ⟨by exact_mod_cast this.1, by exact_mod_cast this.2⟩
  exact (h3 c hc).bounds key.1 key.2

theorem averaged_between {ow oh : ℕ} {out : List UInt8} (hrx : 0 < rx) (hry : 0 < ry)
    (hA : AreaAveraged (1 / 2) rx ry w h d ow oh out) : BetweenSources rx ry w h d ow oh out := by
  intro x hx y hy c hc lo hi hb
  obtain ⟨-, a, b, p, q, h1, h2, h3, h4, hp, h5⟩ := hA.2 x hx y hy
  have near : ∀ {r : ℚ}, 0 < r → ∀ {o s : ℕ} {a b : ℚ}, Close a (o / r - 1 / 2) → Close b ((o + 1) / r - 1 / 2) →
      (s : ℚ) < b → a < s + 1 → NearBy r o s := by
    intro r hr o s a b ha hb' hs1 hs2
    unfold Close at ha hb'
    unfold NearBy posn
    have e1 : ((o : ℚ) + 1) / r = ((o : ℚ) + 1 / 2) / r + 1 / (2 * r) := by field_simp; ring
    have e2 : (o : ℚ) / r = ((o : ℚ) + 1 / 2) / r - 1 / (2 * r) := by field_simp; ring
    rw [e1] at hb'
    rw [e2] at ha
    rw [abs_le] at ha hb' ⊢
    have i : 0 < 1 / (2 * r) := by positivity
    norm_num at ha hb' ⊢
    constructor <;> linarith [ha.1, ha.2, hb'.1, hb'.2]
  have key := areaMean_bounds (v := fun x' y' => ((px w 4 d x' y' c).toNat : ℚ)) (lo := lo) (hi := hi) hp (by
    intro x' hx' y' hy' k1 k2 k3 k4
    have := hb x' hx' y' hy' (near hrx h1 h2 k1 k2) (near hry h3 h4 k3 k4)
    exact ⟨by exact_mod_cast this.1, by exact_mod_cast this.2⟩)
  exact (h5 c hc).bounds key.1 key.2

/-- C26: the result lies between the nearby source pixels. -/
def ResizeBetween : Prop :=
  ∀ (P : Plat) (w h : ℕ) (d : List UInt8) (rx ry : ℚ), Fit P w h d rx ry →
    ∃ out, YieldsDims (fcv_resize P w h (.fin rx) (.fin ry) (some d)) (outDim w rx) (outDim h ry) out ∧
      BetweenSources rx ry w h d (outDim w rx) (outDim h ry) out

/-- Enlarging in both directions, or both factors below 2. -/
theorem resize_between_partial (F : Fit P w h d rx ry) (hb : (1 ≤ rx ∧ 1 ≤ ry) ∨ (rx < 2 ∧ ry < 2)) :
    ∃ out, YieldsDims (fcv_resize P w h (.fin rx) (.fin ry) (some d)) (outDim w rx) (outDim h ry) out ∧
      BetweenSources rx ry w h d (outDim w rx) (outDim h ry) out := by
  obtain ⟨Ax, Ay⟩ := fit_axes F
  by_cases h1 : 1 ≤ rx ∧ 1 ≤ ry
  · obtain ⟨out, hy, hI⟩ := resize_enlarge F h1.1 h1.2
    exact ⟨out, hy, interpolated_between Ax Ay rfl rfl hI⟩
  · have h2 : rx < 2 ∧ ry < 2 := hb.resolve_left h1
    obtain ⟨out, hy, hA⟩ := resize_shrink_partial F (by
      by_contra hc
      push Not at hc
      exact h1 hc) h2.1 h2.2
    exact ⟨out, hy, averaged_between F.use_x.1 F.use_y.1 hA⟩

/-- In particular a single colour stays. -/
theorem resize_uniform_partial (F : Fit P w h d rx ry) (hb : (1 ≤ rx ∧ 1 ≤ ry) ∨ (rx < 2 ∧ ry < 2)) {v : ℕ → UInt8}
    (hu : ∀ x < w, ∀ y < h, ∀ c < 3, px w 4 d x y c = v c) :
    ∃ out, YieldsDims (fcv_resize P w h (.fin rx) (.fin ry) (some d)) (outDim w rx) (outDim h ry) out ∧
      ∀ x < outDim w rx, ∀ y < outDim h ry, ∀ c < 3, px (outDim w rx) 4 out x y c = v c := by
  obtain ⟨out, hy, hB⟩ := resize_between_partial F hb
  refine ⟨out, hy, fun x hx y hy c hc => ?_⟩
  have := hB x hx y hy c hc (v c).toNat (v c).toNat (fun x' hx' y' hy' _ _ => by rw [hu x' hx' y' hy' c hc]; exact ⟨le_refl _, le_refl _⟩)
  exact UInt8.toNat_inj.1 (by omega)

/-! ### C27 -/

/-- C27: an image without black stays without black. -/
def ResizeSamples : Prop :=
  ∀ (P : Plat) (w h : ℕ) (d : List UInt8) (rx ry : ℚ), Fit P w h d rx ry →
    (∀ x < w, ∀ y < h, ∀ c < 3, px w 4 d x y c ≠ 0) →
    ∃ out, YieldsDims (fcv_resize P w h (.fin rx) (.fin ry) (some d)) (outDim w rx) (outDim h ry) out ∧
      ∀ x < outDim w rx, ∀ y < outDim h ry, ∀ c < 3, px (outDim w rx) 4 out x y c ≠ 0

theorem resize_samples_partial (F : Fit P w h d rx ry) (hb : (1 ≤ rx ∧ 1 ≤ ry) ∨ (rx < 2 ∧ ry < 2))
    (hu : ∀ x < w, ∀ y < h, ∀ c < 3, px w 4 d x y c ≠ 0) :
    ∃ out, YieldsDims (fcv_resize P w h (.fin rx) (.fin ry) (some d)) (outDim w rx) (outDim h ry) out ∧
      ∀ x < outDim w rx, ∀ y < outDim h ry, ∀ c < 3, px (outDim w rx) 4 out x y c ≠ 0 := by
  obtain ⟨out, hy, hB⟩ := resize_between_partial F hb
  refine ⟨out, hy, fun x hx y hy c hc h0 => ?_⟩
  have := hB x hx y hy c hc 1 255 (fun x' hx' y' hy' _ _ => by
    have h1 : (px w 4 d x' y' c).toNat ≠ 0 := fun h => hu x' hx' y' hy' c hc (UInt8.toNat_inj.1 h)
    have := (px w 4 d x' y' c).toNat_lt
    omega)
  rw [h0] at this
  simp at this

/-- Shrinking the height while at least doubling the width leaves the first column black. -/
theorem resize_first_column_black (F : Fit P w h d rx ry) (h1 : 2 ≤ rx) (h2 : ry < 1) :
    ∃ out, YieldsDims (fcv_resize P w h (.fin rx) (.fin ry) (some d)) (outDim w rx) (outDim h ry) out ∧
      ∀ y < outDim h ry, ∀ c < 3, px (outDim w rx) 4 out 0 y c = 0 := by
  obtain ⟨Ax, Ay⟩ := fit_axes F
  obtain ⟨G, hG⟩ := area_out F.im.len F.src Ax Ay
  refine ⟨_, resize_with F (G := G) (fun x hx y hy => ?_), fun y hy c hc => ?_⟩
  · rw [if_pos (.inr h2)]
    exact (hG x hx y hy).1
  · obtain ⟨-, a, b, i, j, p, q, k, l, Wx, Wy, -, e2⟩ := hG 0 F.pos_x y hy
    rw [dims_cast _ _ _ F.pos_x hy hc]
    refine e2 ?_ c hc
    have hb := Wx.b_nonpos Ax h1
    rw [areaSum_one, sum_eq_zero (fun s _ => overlap_far (.inl (hb.trans (Nat.cast_nonneg s)))), zero_mul]

/-- The same with the first row. -/
theorem resize_first_row_black (F : Fit P w h d rx ry) (h1 : rx < 1) (h2 : 2 ≤ ry) :
    ∃ out, YieldsDims (fcv_resize P w h (.fin rx) (.fin ry) (some d)) (outDim w rx) (outDim h ry) out ∧
      ∀ x < outDim w rx, ∀ c < 3, px (outDim w rx) 4 out x 0 c = 0 := by
  obtain ⟨Ax, Ay⟩ := fit_axes F
  obtain ⟨G, hG⟩ := area_out F.im.len F.src Ax Ay
  refine ⟨_, resize_with F (G := G) (fun x hx y hy => ?_), fun x hx c hc => ?_⟩
  · rw [if_pos (.inl h1)]
    exact (hG x hx y hy).1
  · obtain ⟨-, a, b, i, j, p, q, k, l, Wx, Wy, -, e2⟩ := hG x hx 0 F.pos_y
    rw [dims_cast _ _ _ hx F.pos_y hc]
    refine e2 ?_ c hc
    have hb := Wy.b_nonpos Ay h2
    rw [areaSum_one, sum_eq_zero (f := fun s => overlap p q s) (fun s _ => overlap_far (.inl (hb.trans (Nat.cast_nonneg s)))), mul_zero]

/-- Facts about a power of two as a factor. -/
theorem rep_pow {k : ℕ} (hk : k ≤ 1000) : Fmt.b64.Rep (2 ^ k) := by
  refine ⟨⟨1, (k : ℤ), ?_, ?_, ?_⟩, ?_⟩
  · have : Fmt.b64.emin = -1074 := rfl
    omega
  · norm_num [Fmt.b64]
  · rw [Int.cast_one, one_mul, zpow_natCast]
  · have : Fmt.b64.emax + 1 = ((1024 : ℕ) : ℤ) := rfl
    rw [this, zpow_natCast, abs_of_pos (by positivity)]
    exact pow_lt_pow_right₀ (by norm_num) (by omega)

theorem whole_dim {n m : ℕ} {r : ℚ} (hr : 0 < r) (e : (n : ℚ) * r = m) (hm : m < 4294967296) : Usable n r ∧ outDim n r = m := by
  have hrnd : Fmt.b64.rnd ((m : ℤ) : ℚ) = ((m : ℤ) : ℚ) := rnd64_int (by
    rw [abs_of_nonneg (by positivity)]
    have : (m : ℤ) ≤ 9007199254740992 := by omega
    exact_mod_cast this)
  have e' : (n : ℚ) * r = ((m : ℤ) : ℚ) := by rw [e]; simp
  constructor
  · refine ⟨hr, ?_⟩
    rw [e', hrnd]
    have : (m : ℤ) ≤ 4294967295 := by omega
    exact_mod_cast this
  · unfold outDim
    rw [e', hrnd, Int.floor_intCast]
    simp

/-- A white 2×2 image. -/
def white4 : List UInt8 := List.replicate 16 255

theorem fit_white4 : Fit Plat.lp64 2 2 white4 2 (1 / 2) := by
  obtain ⟨ux, ox⟩ := whole_dim (n := 2) (m := 4) (r := 2) (by norm_num) (by norm_num) (by norm_num)
  obtain ⟨uy, oy⟩ := whole_dim (n := 2) (m := 1) (r := 1 / 2) (by norm_num) (by norm_num) (by norm_num)
  refine ⟨⟨⟨by norm_num, by norm_num, by unfold IsU32; norm_num, by unfold IsU32; norm_num, rfl, by decide⟩, ?_, ?_, ux, uy, by omega,
    by omega, by rw [ox, oy]; decide⟩, by norm_num, by rw [ox, oy]; norm_num⟩
  · simpa using rep_pow (k := 1) (by norm_num)
  · simpa using rep_inv_pow (k := 1) (by norm_num)

theorem white4_px : ∀ x < 2, ∀ y < 2, ∀ c < 3, px 2 4 white4 x y c = 255 := by decide

theorem not_resizeSamples : ¬ ResizeSamples := by
  intro H
  obtain ⟨out, hy, hs⟩ := H Plat.lp64 2 2 white4 2 (1 / 2) fit_white4 (fun x hx y hy c hc => by
    rw [white4_px x hx y hy c hc]; decide)
  obtain ⟨out', hy', hb⟩ := resize_first_column_black fit_white4 (le_refl _) (by norm_num)
  obtain ⟨rfl, -, -⟩ := yieldsDims_unique hy hy'
  exact hs 0 fit_white4.pos_x 0 fit_white4.pos_y 0 (by norm_num) (hb 0 fit_white4.pos_y 0 (by norm_num))

theorem not_resizeBetween : ¬ ResizeBetween := by
  intro H
  obtain ⟨out, hy, hs⟩ := H Plat.lp64 2 2 white4 2 (1 / 2) fit_white4
  obtain ⟨out', hy', hb⟩ := resize_first_column_black fit_white4 (le_refl _) (by norm_num)
  obtain ⟨rfl, -, -⟩ := yieldsDims_unique hy hy'
  have := hs 0 fit_white4.pos_x 0 fit_white4.pos_y 0 (by norm_num) 255 255 (fun x' hx' y' hy' _ _ => by
    rw [white4_px x' hx' y' hy' 0 (by norm_num)]; decide)
  rw [hb 0 fit_white4.pos_y 0 (by norm_num)] at this
  simp at this

/-! ### C86, C87 -/

/-- C86 for shrinking: the mean over the footprint of the output pixel. -/
def ResizeAverages : Prop :=
  ∀ (P : Plat) (w h : ℕ) (d : List UInt8) (rx ry : ℚ), Fit P w h d rx ry → rx ≤ 1 → ry ≤ 1 →
    ∃ out, YieldsDims (fcv_resize P w h (.fin rx) (.fin ry) (some d)) (outDim w rx) (outDim h ry) out ∧
      AreaAveraged 0 rx ry w h d (outDim w rx) (outDim h ry) out

theorem fit_half {d : List UInt8} (hd : d.length = 8) : Fit Plat.lp64 2 1 d (1 / 2) 1 ∧ outDim 2 (1 / 2) = 1 ∧ outDim 1 1 = 1 := by
  obtain ⟨ux, ox⟩ := whole_dim (n := 2) (m := 1) (r := 1 / 2) (by norm_num) (by norm_num) (by norm_num)
  obtain ⟨uy, oy⟩ := whole_dim (n := 1) (m := 1) (r := 1) (by norm_num) (by norm_num) (by norm_num)
  refine ⟨⟨⟨img_2x1 d hd, ?_, rep_one, ux, uy, by omega, by omega, by rw [ox, oy]; decide⟩, by norm_num,
    by rw [ox, oy]; norm_num⟩, ox, oy⟩
  simpa using rep_inv_pow (k := 1) (by norm_num)

/-- Halving a row of a white and a black pixel gives 2/3 of white. -/
theorem halve_whiteBlack :
    ∃ out, YieldsDims (fcv_resize Plat.lp64 2 1 (.fin (1 / 2)) (.fin 1) (some whiteBlack)) 1 1 out ∧ px 1 4 out 0 0 0 = 170 := by
  obtain ⟨F, ox, oy⟩ := fit_half (d := whiteBlack) rfl
  have run : areaPixel 2 1 (1 / 2) 1 whiteBlack 0 0 = .ok (170, 170, 170) := okVal_eq (by decide +kernel)
  have := resize_with F (G := fun _ _ _ => 170) (by
    rw [ox, oy]
    intro x hx y hy
    rw [if_pos (.inl (by norm_num)), show x = 0 by omega, show y = 0 by omega]
    exact run)
  rw [ox, oy] at this
  exact ⟨_, this, rfl⟩

theorem halve_blackWhite :
    ∃ out, YieldsDims (fcv_resize Plat.lp64 2 1 (.fin (1 / 2)) (.fin 1) (some (flipX 2 1 whiteBlack))) 1 1 out ∧
      px 1 4 out 0 0 0 = 85 := by
  obtain ⟨F, ox, oy⟩ := fit_half (d := flipX 2 1 whiteBlack) rfl
  have run : areaPixel 2 1 (1 / 2) 1 (flipX 2 1 whiteBlack) 0 0 = .ok (85, 85, 85) := okVal_eq (by decide +kernel)
  have := resize_with F (G := fun _ _ _ => 85) (by
    rw [ox, oy]
    intro x hx y hy
    rw [if_pos (.inl (by norm_num)), show x = 0 by omega, show y = 0 by omega]
    exact run)
  rw [ox, oy] at this
  exact ⟨_, this, rfl⟩

theorem not_resizeAverages : ¬ ResizeAverages := by
  intro H
  obtain ⟨F, ox, oy⟩ := fit_half (d := whiteBlack) rfl
  obtain ⟨out, hy, -, hA⟩ := H _ _ _ _ _ _ F (by norm_num) (le_refl _)
  obtain ⟨out', hy', hv⟩ := halve_whiteBlack
  rw [ox, oy] at hy hA
  obtain ⟨rfl, -, -⟩ := yieldsDims_unique hy hy'
  obtain ⟨-, a, b, c, e, h1, h2, h3, h4, hp, h5⟩ := hA 0 (by norm_num) 0 (by norm_num)
  have h6 := h5 0 (by norm_num)
  have p0 : (px 2 4 whiteBlack 0 0 0).toNat = 255 := rfl
  have p1 : (px 2 4 whiteBlack 1 0 0).toNat = 0 := rfl
  unfold Close at h1 h2
  rw [abs_le] at h1 h2
  norm_num at h1 h2
  have o0 : overlap a b 0 ≤ 1 := overlap_le_one _ _ _
  have o1 : 1 - 1 / 32768 ≤ overlap a b 1 := by
    unfold overlap
    refine le_max_of_le_right ?_
    have : max ((1 : ℕ) : ℚ) a = 1 := by push_cast; exact max_eq_left (by linarith)
    rw [this]
    push_cast
    have : 2 - 1 / 32768 ≤ min ((1 : ℚ) + 1) b := le_min (by norm_num) (by linarith)
    linarith
  have oy0 : 0 ≤ overlap c e 0 := overlap_nonneg _ _ _
  rw [areaSum_one] at hp
  simp only [sum_range_succ, sum_range_zero, zero_add] at hp
  have oyp : 0 < overlap c e 0 := by
    rcases oy0.eq_or_lt with h | h
    · rw [← h, mul_zero] at hp
      exact absurd hp (lt_irrefl _)
    · exact h
  have mean : areaMean 2 1 a b c e (fun x' y' => ((px 2 4 whiteBlack x' y' 0).toNat : ℚ)) ≤ 130 := by
    unfold areaMean
    rw [areaSum_one]
    unfold areaSum
    simp only [sum_range_succ, sum_range_zero, zero_add, p0, p1]
    rw [div_le_iff₀ hp]
    push_cast
    have : overlap a b 0 * 255 ≤ 130 * (overlap a b 0 + overlap a b 1) := by linarith
    nlinarith
  unfold RoundsTo at h6
  rw [hv, abs_le] at h6
  have : ((170 : UInt8).toNat : ℚ) = 170 := by
    show ((170 : ℕ) : ℚ) = 170
    norm_num
  rw [this] at h6
  linarith [h6.2]

/-- C87: resizing the mirrored image gives the mirrored result, up to rounding. -/
def ResizeMirrors : Prop :=
  ∀ (P : Plat) (w h : ℕ) (d : List UInt8) (rx ry : ℚ) (out out' : List UInt8), Fit P w h d rx ry →
    (w : ℚ) * rx = outDim w rx →
    YieldsDims (fcv_resize P w h (.fin rx) (.fin ry) (some d)) (outDim w rx) (outDim h ry) out →
    YieldsDims (fcv_resize P w h (.fin rx) (.fin ry) (some (flipX w h d))) (outDim w rx) (outDim h ry) out' →
    ∀ x < outDim w rx, ∀ y < outDim h ry, ∀ c < 3,
      (px (outDim w rx) 4 out' x y c).toNat ≤ (px (outDim w rx) 4 out (outDim w rx - 1 - x) y c).toNat + 1 ∧
      (px (outDim w rx) 4 out (outDim w rx - 1 - x) y c).toNat ≤ (px (outDim w rx) 4 out' x y c).toNat + 1

theorem lerp_congr_close {n : ℕ} (hn : 0 < n) {u v : ℕ → ℚ} {e t : ℚ} (h : ∀ i, |u i - v i| ≤ e) :
    |lerp n u t - lerp n v t| ≤ e := by
  obtain ⟨i, hi, f, f0, f1, eq, _⟩ := clamp_split hn t
  rw [lerp_clamp n u, lerp_clamp n v, eq, lerp_at hi f0 f1.le, lerp_at hi f0 f1.le]
  have a1 := abs_le.1 (h i)
  have a2 := abs_le.1 (h (min (i + 1) (n - 1)))
  rw [abs_le]
  constructor <;> nlinarith [a1.1, a1.2, a2.1, a2.2]

/-- For enlarging. -/
theorem resize_mirrors_partial {out out' : List UInt8} (F : Fit P w h d rx ry) (h1 : 1 ≤ rx) (h2 : 1 ≤ ry)
    (hx1 : (w : ℚ) * rx = outDim w rx)
    (ho : YieldsDims (fcv_resize P w h (.fin rx) (.fin ry) (some d)) (outDim w rx) (outDim h ry) out)
    (ho' : YieldsDims (fcv_resize P w h (.fin rx) (.fin ry) (some (flipX w h d))) (outDim w rx) (outDim h ry) out') :
    ∀ x < outDim w rx, ∀ y < outDim h ry, ∀ c < 3,
      (px (outDim w rx) 4 out' x y c).toNat ≤ (px (outDim w rx) 4 out (outDim w rx - 1 - x) y c).toNat + 1 ∧
      (px (outDim w rx) 4 out (outDim w rx - 1 - x) y c).toNat ≤ (px (outDim w rx) 4 out' x y c).toNat + 1 := by
  have im' : Img P w h 4 (flipX w h d) := by
    have hl : (flipX w h d).length = w * h * 4 := mkImg_length _ _ _ _
    exact ⟨F.im.w_pos, F.im.h_pos, F.im.w_u32, F.im.h_u32, hl, by rw [hl, ← F.im.len]; exact F.im.size⟩
  have F' : Fit P w h (flipX w h d) rx ry := ⟨⟨im', F.rep_x, F.rep_y, F.use_x, F.use_y, F.pos_x, F.pos_y, F.fits⟩, F.src, F.dst⟩
  obtain ⟨o, hy, hI⟩ := resize_enlarge F h1 h2
  obtain ⟨rfl, -, -⟩ := yieldsDims_unique ho hy
  obtain ⟨o, hy', hI'⟩ := resize_enlarge F' h1 h2
  obtain ⟨rfl, -, -⟩ := yieldsDims_unique ho' hy'
  intro x hx y hy c hc
  obtain ⟨-, tx, ty, a1, a2, a3⟩ := hI'.2 x hx y hy
  obtain ⟨-, sx, sy, b1, b2, b3⟩ := hI.2 (outDim w rx - 1 - x) (by omega) y hy
  refine (a3 c hc).near (b3 c hc) ?_
  have hw := F.im.w_pos
  have hh := F.im.h_pos
  have hpos : posn rx (outDim w rx - 1 - x : ℕ) = w - 1 - posn rx x := by
    have hcast : ((outDim w rx - 1 - x : ℕ) : ℚ) = outDim w rx - 1 - x := by
      rw [Nat.cast_sub (by omega), Nat.cast_sub (by omega)]
      simp
    have hr := F.use_x.1
    unfold posn
    rw [hcast, ← hx1]
    field_simp
    ring
  rw [hpos] at b1
  unfold Close at a1 a2 b1 b2
  have ex : |(w - 1 - tx) - sx| ≤ 1 / 2 ^ 15 := by
    rw [abs_le] at *
    norm_num at *
    constructor <;> linarith [a1.1, a1.2, b1.1, b1.2]
  have ey : |ty - sy| ≤ 1 / 2 ^ 15 := by
    rw [abs_le] at *
    norm_num at *
    constructor <;> linarith [a2.1, a2.2, b2.1, b2.2]
  have e1 : lerp2 w h (fun x' y' => ((px w 4 (flipX w h d) x' y' c).toNat : ℚ)) tx ty =
      lerp h (fun y' => lerp w (fun x' => ((px w 4 d x' y' c).toNat : ℚ)) (w - 1 - tx)) ty := by
    have inner : ∀ y' < h, lerp w (fun x' => ((px w 4 (flipX w h d) x' y' c).toNat : ℚ)) tx =
        lerp w (fun x' => ((px w 4 d x' y' c).toNat : ℚ)) (w - 1 - tx) := by
      intro y' hy'
      rw [← lerp_rev hw]
      obtain ⟨i, hi, f, f0, f1, eq, _⟩ := clamp_split hw tx
      rw [lerp_clamp w, lerp_clamp w (fun i => _) tx, eq, lerp_at hi f0 f1.le, lerp_at hi f0 f1.le]
      have g : ∀ i < w, px w 4 (flipX w h d) i y' c = px w 4 d (w - 1 - i) y' c :=
        fun i hi => px_mkImg hi hy' (by omega)
      rw [g i hi, g (min (i + 1) (w - 1)) (by omega)]
    unfold lerp2
    obtain ⟨i, hi, f, f0, f1, eq, _⟩ := clamp_split hh ty
    rw [lerp_clamp h, lerp_clamp h (fun y' => lerp w (fun x' => ((px w 4 d x' y' c).toNat : ℚ)) (w - 1 - tx)) ty, eq,
      lerp_at hi f0 f1.le, lerp_at hi f0 f1.le, inner i hi, inner (min (i + 1) (h - 1)) (by omega)]
  rw [e1]
  unfold lerp2
  have l1 := lerp_lip hh (v := fun y' => lerp w (fun x' => ((px w 4 d x' y' c).toNat : ℚ)) (w - 1 - tx))
    (fun i => lerp_range hw (fun j => val_range w d j i c) _) (s := ty) (t := sy) (ey.trans (by norm_num))
  have l2 := lerp_congr_close hh (u := fun y' => lerp w (fun x' => ((px w 4 d x' y' c).toNat : ℚ)) (w - 1 - tx))
    (v := fun y' => lerp w (fun x' => ((px w 4 d x' y' c).toNat : ℚ)) sx) (e := 255 * (1 / 2 ^ 15)) (t := sy) (fun i =>
      (lerp_lip hw (fun j => val_range w d j i c) (ex.trans (by norm_num))).trans (mul_le_mul_of_nonneg_left ex (by norm_num)))
  have l1' := l1.trans (mul_le_mul_of_nonneg_left ey (by norm_num))
  rw [abs_le] at l1' l2 ⊢
  norm_num at l1' l2 ⊢
  constructor <;> linarith [l1'.1, l1'.2, l2.1, l2.2]

theorem not_resizeMirrors : ¬ ResizeMirrors := by
  intro H
  obtain ⟨F, ox, oy⟩ := fit_half (d := whiteBlack) rfl
  obtain ⟨out, hy, hv⟩ := halve_whiteBlack
  obtain ⟨out', hy', hv'⟩ := halve_blackWhite
  have := H Plat.lp64 2 1 whiteBlack (1 / 2) 1 out out' F (by rw [ox]; norm_num) (by rw [ox, oy]; exact hy)
    (by rw [ox, oy]; exact hy') 0 F.pos_x 0 F.pos_y 0 (by norm_num)
  rw [ox] at this
  rw [hv, hv'] at this
  simp at this

/-! ### C88 -/

/-- C88: every byte of a result is initialised, however large. -/
def ResizeInitialises : Prop :=
  ∀ (P : Plat) (w h : ℕ) (d : List UInt8) (rx ry : ℚ), Resizable P w h d rx ry → w * h * 4 < 4294967296 → ∀ hp,
    HOk (fcv_resize P w h (.fin rx) (.fin ry) (some d)) hp fun r _ =>
      ∀ b, r.1 = some b → ∀ i < b.cells.length, ∃ v, b.cells[i]? = some (some v)

theorem resize_initialises_partial (R : Resizable P w h d rx ry) (hs : w * h * 4 < 4294967296)
    (ho : outDim w rx * outDim h ry * 4 < 4294967296) (hp : Heap) :
    HOk (fcv_resize P w h (.fin rx) (.fin ry) (some d)) hp fun r _ =>
      ∀ b, r.1 = some b → ∀ i < b.cells.length, ∃ v, b.cells[i]? = some (some v) := by
  obtain ⟨out, hy, -⟩ := resize_safe (⟨R, hs, ho⟩ : Fit P w h d rx ry)
  obtain ⟨r, h', e, hq⟩ := hy hp
  refine ⟨r, h', e, fun b hb i hi => ?_⟩
  obtain ⟨-, hq⟩ := hq
  rw [hb] at hq
  rw [hq.2] at hi ⊢
  simp only [List.length_map] at hi
  exact ⟨out[i], by simp [hi]⟩

/-- A result of more than `2^32` bytes is never filled beyond byte `2^32`. -/
theorem resize_leaves_uninitialised (R : Resizable P w h d rx ry)
    (ho : 4294967296 < outDim w rx * outDim h ry * 4) {hp hp' : Heap} {b : Buf UInt8} {S : Option (ℕ × ℕ)}
    (e : fcv_resize P w h (.fin rx) (.fin ry) (some d) hp = .ok ((some b, S), hp')) :
    b.cells[4294967296]? = some none := by
  rw [resize_unfold P R.im.w_pos R.im.h_pos R.use_x R.use_y, resizeTail_fits R.pos_x R.pos_y R.fits] at e
  by_cases f0 : hp.fails hp.next
  · simp [hm_bind, malloc, f0, hm_pure] at e
  · rcases hl : resizeLoop w h (outDim w rx) (outDim h ry) rx ry d
      (List.replicate (outDim w rx * outDim h ry * 4) none) with f | c
    · simp [hm_bind, malloc, f0, use, hl, Except.map] at e
    · simp [hm_bind, malloc, f0, use, hl, hm_pure, Except.map] at e
      obtain ⟨⟨rfl, rfl⟩, -⟩ := e
      have := resizeLoop_beyond c hl 4294967296 (le_refl _)
      rw [this, List.getElem?_replicate, if_pos ho]

/-- With memory available the call does not return NULL. -/
theorem resize_some (R : Resizable P w h d rx ry) {r : Option (Buf UInt8) × Option (ℕ × ℕ)} {hp' : Heap}
    (e : fcv_resize P w h (.fin rx) (.fin ry) (some d) Heap.fresh = .ok (r, hp')) : ∃ b, r.1 = some b := by
  rw [resize_unfold _ R.im.w_pos R.im.h_pos R.use_x R.use_y, resizeTail_fits R.pos_x R.pos_y R.fits] at e
  rcases hl : resizeLoop w h (outDim w rx) (outDim h ry) rx ry d
    (List.replicate (outDim w rx * outDim h ry * 4) none) with f | c
  · simp [hm_bind, malloc, Heap.fresh, use, hl, Except.map] at e
  · simp [hm_bind, malloc, Heap.fresh, use, hl, hm_pure, Except.map] at e
    obtain ⟨rfl, -⟩ := e
    exact ⟨_, rfl⟩

theorem uninit_witness (R : Resizable P w h d rx ry) (ho : 4294967296 < outDim w rx * outDim h ry * 4)
    (H : HOk (fcv_resize P w h (.fin rx) (.fin ry) (some d)) Heap.fresh fun r _ =>
      ∀ b, r.1 = some b → ∀ i < b.cells.length, ∃ v, b.cells[i]? = some (some v)) : False := by
  obtain ⟨⟨rb, rs⟩, h', e, hq⟩ := H
  obtain ⟨b, hb⟩ := resize_some R e
  simp only at hb
  subst hb
  have hn := resize_leaves_uninitialised R ho e
  have hlen : 4294967296 < b.cells.length := by
    obtain ⟨_, _, e1, e2, -, -, -, -, -, hl⟩ := resize_dims e
    cases e1
    cases e2
    rw [hl]
    exact ho
  obtain ⟨v, hv⟩ := hq b rfl 4294967296 hlen
  rw [hn] at hv
  cases hv

theorem not_resizeInitialises : ¬ ResizeInitialises := by
  intro H
  obtain ⟨ux, ox⟩ := whole_dim (n := 1) (m := 65536) (r := 65536) (by norm_num) (by norm_num) (by norm_num)
  have rep : Fmt.b64.Rep 65536 := by have := rep_pow (k := 16) (by norm_num); norm_num at this; exact this
  have R : Resizable Plat.lp64 1 1 [9, 9, 9, 9] 65536 65536 := by
    refine ⟨⟨by norm_num, by norm_num, by unfold IsU32; norm_num, by unfold IsU32; norm_num, rfl, by decide⟩, rep, rep, ux, ux,
      by omega, by omega, ?_⟩
    rw [ox]
    have : Plat.lp64.szMax = 18446744073709551615 := rfl
    omega
  exact uninit_witness R (by rw [ox]; norm_num) (H _ _ _ _ _ _ R (by norm_num) Heap.fresh)

end FlatCV.Props
