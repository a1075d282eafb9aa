/-
The run of corner detection up to the selection, when no allocation fails.
-/
import Verif.Lemmas.Detect
import Verif.Props.Gray
import Verif.Props.Resize
import Verif.Props.Blur
import Verif.Props.Sobel
import Verif.Props.Draw
import Verif.Props.Watershed
import Verif.Props.Colors
import Verif.Props.Color
import Verif.Props.Morph
import Verif.Props.Foerstner
import Verif.Props.Peaks

namespace FlatCV.Props
open FlatCV FlatCV.Model FlatCV.Spec

theorem szMax_ge (P : Plat) : 4294967295 ≤ P.szMax := by
  have := P.mod_ge
  unfold Plat.szMax
  omega

/-- The size of the working image. -/
structure Work (ow oh : Nat) : Prop where
  w1 : 255 ≤ ow
  w2 : ow ≤ 256
  h1 : 255 ≤ oh
  h2 : oh ≤ 256

theorem Work.area {ow oh : Nat} (wk : Work ow oh) : 65025 ≤ ow * oh ∧ ow * oh ≤ 65536 := by
  have h1 := Nat.mul_le_mul wk.w1 wk.h1
  have h2 := Nat.mul_le_mul wk.w2 wk.h2
  omega

theorem Work.img {ow oh ch : Nat} (wk : Work ow oh) (P : Plat) (hch : ch ≤ 4) {d : List UInt8} (hd : d.length = ow * oh * ch) :
    Img P ow oh ch d := by
  have := wk.area
  have := szMax_ge P
  have := wk.w1
  have := wk.w2
  have := wk.h1
  have := wk.h2
  have h3 : ow * oh * ch ≤ 65536 * 4 := Nat.mul_le_mul (by omega) hch
  exact ⟨by omega, by omega, by unfold IsU32; omega, by unfold IsU32; omega, hd, by omega⟩

/-- `256.0 / n`, rounded. -/
def toWork (n : Nat) : ℚ := Fmt.b64.rnd (256 / n)

theorem toWork_bounds {n : Nat} (h0 : 0 < n) (h1 : n ≤ 1073741824) :
    scaleOf 256 n = .ok (.fin (toWork n)) ∧ 0 < toWork n ∧ Fmt.b64.Rep (toWork n) ∧ Usable n (toWork n) ∧
      255 ≤ outDim n (toWork n) ∧ outDim n (toWork n) ≤ 256 := by
  have hn1 : (1 : ℚ) ≤ (n : ℚ) := by exact_mod_cast h0
  have hn2 : (n : ℚ) ≤ 1073741824 := by exact_mod_cast h1
  have hn0 : (n : ℚ) ≠ 0 := by linarith
  have hq1 : (256 : ℚ) / n ≤ 256 := (div_le_self (by norm_num) hn1)
  have hq0 : (0 : ℚ) < 256 / n := by positivity
  have hq2 : (1 : ℚ) / 4194304 ≤ 256 / n := by
    rw [div_le_div_iff₀ (by norm_num) (by linarith)]
    linarith
  have hnq : (n : ℚ) * (256 / n) = 256 := by field_simp
  have herr := rnd64_err (256 / (n : ℚ))
  rw [abs_of_pos hq0] at herr
  have hsmall : (1 : ℚ) / 2 ^ 1075 ≤ (256 / n) / 2 ^ 53 := by
    have : (1 : ℚ) / 2 ^ 1075 ≤ (1 / 4194304) / 2 ^ 53 := by
      rw [div_div, div_le_div_iff₀ (by positivity) (by positivity), one_mul, one_mul]
      have e : (4194304 : ℚ) * 2 ^ 53 = 2 ^ 75 := by norm_num
      rw [e]
      exact pow_le_pow_right₀ (by norm_num) (by norm_num)
    refine this.trans ?_
    gcongr
  have herr2 : |toWork n - 256 / n| ≤ (256 / n) / 2 ^ 52 := by
    refine herr.trans ?_
    have : (256 / (n : ℚ)) / 2 ^ 52 = (256 / n) / 2 ^ 53 + (256 / n) / 2 ^ 53 := by ring
    rw [this]
    linarith
  rw [abs_le] at herr2
  have hup : (n : ℚ) * toWork n ≤ 256 + 1 / 2 := by
    have h := mul_le_mul_of_nonneg_left herr2.2 (by linarith : (0 : ℚ) ≤ n)
    have e : (n : ℚ) * (256 / n / 2 ^ 52) = 256 / 2 ^ 52 := by field_simp
    rw [mul_sub, hnq, e] at h
    have : (256 : ℚ) / 2 ^ 52 ≤ 1 / 2 := by norm_num
    linarith
  have hlo : (255 : ℚ) ≤ (n : ℚ) * toWork n := by
    have h := mul_le_mul_of_nonneg_left herr2.1 (by linarith : (0 : ℚ) ≤ n)
    have e : (n : ℚ) * -(256 / n / 2 ^ 52) = -(256 / 2 ^ 52) := by field_simp
    rw [mul_sub, hnq, e] at h
    have : (256 : ℚ) / 2 ^ 52 ≤ 1 / 2 := by norm_num
    linarith
  have hpos : 0 < toWork n := by
    by_contra hc
    nlinarith
  have r255 : Fmt.b64.Rep 255 := by simpa using rep64_int (z := 255) (by norm_num)
  have r2565 : Fmt.b64.rnd (256 + 1 / 2) = 256 + 1 / 2 := by
    have := half_exact (m := 513) (by norm_num)
    norm_num at this ⊢
    exact this
  have hr1 : 255 ≤ Fmt.b64.rnd (n * toWork n) := le_rnd _ hlo r255.rnd
  have hr2 : Fmt.b64.rnd (n * toWork n) ≤ 256 + 1 / 2 := by
    have := rnd_mono Fmt.b64 hup
    rwa [r2565] at this
  refine ⟨?_, hpos, ?_, ⟨hpos, by linarith⟩, ?_, ?_⟩
  · unfold scaleOf
    rw [show Dbl.div Fmt.b64 (.fin ((256 : ℕ) : ℚ)) (.fin (n : ℚ)) = .ok (Fmt.b64.lift (((256 : ℕ) : ℚ) / n)) from if_neg hn0]
    rw [lift64 (k := 8) (by norm_num) (by push_cast; rw [abs_of_pos hq0]; linarith)]
    push_cast
    rfl
  · refine ⟨rnd_rep _ _, ?_⟩
    have hle : toWork n ≤ 257 := by nlinarith
    show |toWork n| < 2 ^ (Fmt.b64.emax + 1)
    rw [abs_of_pos hpos]
    exact lt_of_lt_of_le (by linarith) ((by norm_num : (2 : ℚ) ^ 9 ≤ 2 ^ 33).trans emax64)
  · unfold outDim
    have : (255 : ℤ) ≤ ⌊Fmt.b64.rnd (n * toWork n)⌋ := Int.le_floor.2 (by exact_mod_cast hr1)
    omega
  · unfold outDim
    have : ⌊Fmt.b64.rnd (n * toWork n)⌋ < 257 := Int.floor_lt.2 (by push_cast; linarith)
    omega

/-- `x = f(b); free(b); if (!x) exit`. -/
theorem nextImage_ok {hp h : Heap} {X : List Nat} (hf : ∀ i, hp.fails i = false) {i : Nat} {d out : List UInt8}
    {f : List UInt8 → HM (Option (Buf UInt8))} (t : Track hp h (i :: X)) (hy : Yields (f d) out) :
    HOk (nextImage ⟨i, d.map some⟩ f) h fun r h' => ∃ j, r = ⟨j, out.map some⟩ ∧ Track hp h' (j :: X) := by
  unfold nextImage
  refine HOk.bind (t.use (by simp) (asInput_map_some d)) ?_
  rintro d _ ⟨rfl, rfl⟩
  refine HOk.bind (t.yields hf hy) ?_
  rintro _ h1 ⟨j, rfl, t1⟩
  refine HOk.bind (t1.free (i := i) (Y := j :: X) (List.Perm.swap _ _ _)) ?_
  rintro _ h2 t2
  exact HOk.pure ⟨j, rfl, t2⟩

/-- A number between 0 and 2^31 cut to its integer part. -/
theorem half_trunc (n : Nat) : TruncatesTo ((n : ℚ) / 2) (n / 2) := by
  have e : n = 2 * (n / 2) + n % 2 := by omega
  have hm : n % 2 ≤ 1 := by omega
  have e' : (n : ℚ) = 2 * ((n / 2 : ℕ) : ℚ) + ((n % 2 : ℕ) : ℚ) := by exact_mod_cast e
  have hm' : ((n % 2 : ℕ) : ℚ) ≤ 1 := by exact_mod_cast hm
  have h0 : (0 : ℚ) ≤ ((n % 2 : ℕ) : ℚ) := by positivity
  have h1 : (0 : ℚ) ≤ ((n / 2 : ℕ) : ℚ) := by positivity
  exact ⟨by linarith, by linarith, Or.inl (by linarith)⟩

theorem half_div {n : Nat} (hn : n ≤ 1048576) : Dbl.div Fmt.b64 (.fin n) (.fin 2) = .ok (.fin ((n : ℚ) / 2)) := by
  rw [show Dbl.div Fmt.b64 (.fin (n : ℚ)) (.fin 2) = .ok (Fmt.b64.lift ((n : ℚ) / 2)) from rfl]
  have := half_lift (m := (n : ℤ)) (by rw [abs_of_nonneg (by omega)]; omega)
  rw [Int.cast_natCast] at this
  rw [this]

/-- Removing a border of one pixel. -/
theorem unborder_ok {ow oh : Nat} (wk : Work ow oh) {wd : List UInt8} (hd : wd.length = (ow + 2) * (oh + 2) * 4) :
    (forN (u32sub (oh + 2) 1 - 1) (List.replicate (ow * oh * 4) none) fun k s =>
      memcpyIn s (u32 (u32 ((k + 1 - 1) * ow) * 4)) wd (u32 (u32 (u32 ((k + 1) * (ow + 2)) + 1) * 4)) (u32 (ow * 4))) =
      .ok ((mkImg ow oh 4 fun x y c => px (ow + 2) 4 wd (x + 1) (y + 1) c).map some) := by
  obtain ⟨w1, w2, h1, h2⟩ := wk
  have hb : u32sub (oh + 2) 1 - 1 = oh := by
    rw [u32sub_eq (by omega) (by omega)]
    omega
  rw [hb]
  refine Ok.eq ((Filled.loop (fun y k => ∃ i, i < ow * 4 ∧ k = y * ow * 4 + i)
    (Filled.start' (mkImg ow oh 4 fun x y c => px (ow + 2) 4 wd (x + 1) (y + 1) c) (mkImg_length _ _ _ _).symm) ?_).mono ?_)
  · intro y hy V s hs
    have m1 : y * ow ≤ 256 * 256 := Nat.mul_le_mul (by omega) w2
    have m2 : (y + 1) * (ow + 2) ≤ 258 * 258 := Nat.mul_le_mul (by omega) (by omega)
    rw [show y + 1 - 1 = y by omega, u32_eq (n := y * ow) (by omega), u32_eq (n := y * ow * 4) (by omega),
      u32_eq (n := (y + 1) * (ow + 2)) (by omega), u32_eq (n := (y + 1) * (ow + 2) + 1) (by omega),
      u32_eq (n := ((y + 1) * (ow + 2) + 1) * 4) (by omega), u32_eq (n := ow * 4) (by omega)]
    refine hs.memcpyIn ?_ ?_
    · rw [hd]
      have : (y + 1 + 1) * (ow + 2) ≤ (ow + 2) * (oh + 2) := by
        rw [Nat.mul_comm (ow + 2)]
        exact Nat.mul_le_mul_right _ (by omega)
      have e : (y + 1 + 1) * (ow + 2) = (y + 1) * (ow + 2) + (ow + 2) := by ring
      omega
    · intro k hk
      have e1 : y * ow * 4 + k = (y * ow + k / 4) * 4 + k % 4 := by omega
      have e2 : ((y + 1) * (ow + 2) + 1) * 4 + k = ((y + 1) * (ow + 2) + (k / 4 + 1)) * 4 + k % 4 := by omega
      rw [e1, e2, mkImg_getElem? (by omega) hy (by omega), getElem?_px hd (by omega) (by omega) (by omega)]
  · intro s hs
    refine hs.done ?_
    rw [mkImg_length]
    intro k hk
    obtain ⟨x, y, c, hx, hy, hc, rfl⟩ := idx3_surj hk
    exact Or.inr ⟨y, hy, x * 4 + c, by omega, by ring⟩

/-- The watershed step leaves one block more than needed. -/
theorem segmentImage_ok (P : Plat) {hp h : Heap} {X : List Nat} (hf : ∀ i, hp.fails i = false) {ow oh i : Nat} (wk : Work ow oh)
    {d : List UInt8} (hd : d.length = (ow + 2) * (oh + 2)) (t : Track hp h (i :: X)) :
    HOk (segmentImage P ow oh (ow + 2) (oh + 2) ⟨i, d.map some⟩) h fun r h' => ∃ (j k : Nat) (out : List UInt8), r = ⟨j, out.map some⟩ ∧
      out.length = ow * oh * 4 ∧ Track hp h' (j :: k :: X) := by
  have ⟨w1, w2, h1, h2⟩ := wk
  have hsz := szMax_ge P
  have harea := wk.area
  have hbig : (ow + 2) * (oh + 2) ≤ 258 * 258 := Nat.mul_le_mul (by omega) (by omega)
  unfold segmentImage
  refine HOk.bind (t.malloc hf) ?_
  rintro _ h3 ⟨m, rfl, t3⟩
  dsimp only
  refine HOk.bind (t3.use (v := [(.fin (((ow + 2 : ℕ) : ℚ) / 2), .fin (((oh + 2 : ℕ) : ℚ) / 2)), (.fin 0, .fin 0)]) (by simp) (by
    rw [half_div (by omega), ok_bind, half_div (by omega), ok_bind]
    rfl)) ?_
  rintro ms _ ⟨hms, rfl⟩
  refine HOk.bind (t3.use (by simp) (asInput_map_some d)) ?_
  rintro d _ ⟨rfl, rfl⟩
  have hin : MarkersInside (ow + 2) (oh + 2) ms := by
    rw [hms]
    intro m hm
    rcases List.mem_cons.1 hm with rfl | hm
    · exact ⟨((ow + 2) / 2, (oh + 2) / 2), ⟨_, _, rfl, half_trunc _, half_trunc _⟩, by constructor <;> dsimp only <;> omega⟩
    · rw [List.mem_singleton] at hm
      subst hm
      refine ⟨(0, 0), ⟨_, _, rfl, ?_, ?_⟩, by constructor <;> dsimp only <;> omega⟩ <;>
        exact ⟨by norm_num, by norm_num, Or.inr rfl⟩
  obtain ⟨L, hy, -⟩ := watershed_correct (P := P) false (d := d) (ms := ms)
    ⟨by omega, by omega, by unfold IsU32; omega, by unfold IsU32; omega, by rw [hd, Nat.mul_one], by omega⟩ hin (by rw [hms]; simp) (by rw [hms]; simp)
    (by omega) (by omega)
  rw [show ms.length = 2 by rw [hms]; rfl] at hy
  refine HOk.bind (t3.yields hf hy) ?_
  rintro _ h4 ⟨k, rfl, t4⟩
  refine HOk.bind (t4.free (i := i) (Y := k :: m :: X) (by
    refine List.Perm.cons _ ?_ |>.trans (List.Perm.swap _ _ _)
    exact List.Perm.swap _ _ _)) ?_
  rintro _ h5 t5
  refine HOk.bind (t5.free (i := m) (Y := k :: X) (List.Perm.swap _ _ _)) ?_
  rintro _ h6 t6
  rw [u32_eq (n := ow * oh) (by omega), u32_eq (n := ow * oh * 4) (by omega)]
  refine HOk.bind (t6.malloc hf) ?_
  rintro _ h7 ⟨j, rfl, t7⟩
  dsimp only
  refine HOk.bind (t7.use (v := (mkImg ow oh 4 fun x y c => px (ow + 2) 4 (paintRegions (ow + 2) (oh + 2) L) (x + 1) (y + 1) c).map some)
    (by simp) (by
      rw [asInput_map_some, ok_bind]
      exact unborder_ok wk (mkImg_length _ _ _ _))) ?_
  rintro _ _ ⟨rfl, rfl⟩
  exact HOk.pure ⟨j, k, _, rfl, mkImg_length _ _ _ _, t7⟩

/-- From the image to the corner response: the run exits or leaves the response and one further block. -/
theorem cornerResponse_ok (P : Plat) {ex : ℚ → ℚ} (hex : ExpOk ex) {hp : Heap} (hf : ∀ i, hp.fails i = false) {w h : Nat}
    {d : List UInt8} (im : Img P w h 4 d) (h32 : w * h * 4 < 4294967296) :
    OkOrExit (cornerResponse P ex w h d) hp fun r h' => ∃ (j k ow oh : Nat) (out : List UInt8), r = some (⟨j, out.map some⟩, ow, oh) ∧ Work ow oh ∧
      out.length = ow * oh * 2 ∧ Track hp h' [j, k] := by
  have hw := im.w_pos
  have hh := im.h_pos
  have hsz := szMax_ge P
  have hw1 : w ≤ w * h := Nat.le_mul_of_pos_right w hh
  have hh1 : h ≤ w * h := Nat.le_mul_of_pos_left h hw
  obtain ⟨sx, sx0, sx1, sx2, sx3, sx4⟩ := toWork_bounds hw (by omega)
  obtain ⟨sy, sy0, sy1, sy2, sy3, sy4⟩ := toWork_bounds hh (by omega)
  have wk : Work (outDim w (toWork w)) (outDim h (toWork h)) := ⟨sx3, sx4, sy3, sy4⟩
  have harea := wk.area
  unfold cornerResponse
  refine OkOrExit.bind ((Track.start hp).yields hf (grayscale_correct im (by omega))).orExit ?_
  rintro _ h1 ⟨i1, rfl, t1⟩
  dsimp only
  have hg : (grayRGBA (w * h) (lumaAt d)).length = w * h * 4 := by simp
  generalize grayRGBA (w * h) (lumaAt d) = g at *
  refine OkOrExit.bind (t1.use (by simp) (asInput_map_some g)).orExit ?_
  rintro g h8 ⟨rfl, rfl⟩
  refine OkOrExit.bind (t1.use (ids := []) (by simp) sx).orExit ?_
  rintro _ _ ⟨rfl, rfl⟩
  refine OkOrExit.bind (t1.use (ids := []) (by simp) sy).orExit ?_
  rintro _ _ ⟨rfl, rfl⟩
  have F : Fit P w h g (toWork w) (toWork h) :=
    { im := ⟨im.w_pos, im.h_pos, im.w_u32, im.h_u32, hg, by rw [hg]; omega⟩
      rep_x := sx1, rep_y := sy1, use_x := sx2, use_y := sy2, pos_x := by omega, pos_y := by omega, fits := by omega
      src := h32, dst := by omega }
  obtain ⟨res, hres, hresl⟩ := resize_safe F
  generalize outDim w (toWork w) = ow at *
  generalize outDim h (toWork h) = oh at *
  refine OkOrExit.bind (t1.yieldsDims hf hres).orExit ?_
  rintro _ h2 ⟨i2, rfl, t2⟩
  dsimp only
  refine OkOrExit.bind (t2.free (i := i1) (Y := [i2]) (List.Perm.swap _ _ _)).orExit ?_
  rintro _ h3 t3
  dsimp only [Option.getD]
  obtain ⟨bl, hbl, hbll, -⟩ := blur_writes_all_partial (P := P) hex (wk.img P (le_refl 4) hresl) (by omega) (r := 3)
    (by simpa using rep64_int (z := 3) (by norm_num)) (by norm_num) (usual_radius (by norm_num)) (by norm_num)
  refine OkOrExit.bind (nextImage_ok hf t3 hbl).orExit ?_
  rintro _ h4 ⟨i4, rfl, t4⟩
  obtain ⟨el, hell, hel⟩ := sobel_safe_partial (P := P) (Or.inr rfl) (wk.img P (le_refl 4) hbll) (by omega)
  refine OkOrExit.bind (nextImage_ok hf t4 hel).orExit ?_
  rintro _ h5 ⟨i5, rfl, t5⟩
  have iel : Img P ow oh 1 el := wk.img P (by omega) (by omega)
  have hw256 : (ow : ℚ) ≤ 256 := by exact_mod_cast wk.w2
  have hh256 : (oh : ℚ) ≤ 256 := by exact_mod_cast wk.h2
  have hw0 : (0 : ℚ) ≤ (ow : ℚ) := by positivity
  have hh0 : (0 : ℚ) ≤ (oh : ℚ) := by positivity
  obtain ⟨fl, hfl, hfll⟩ := (draw_safe_partial iel (by omega) "000000".toList (ρ := 24) (cx := (ow : ℚ) / 2) (cy := (oh : ℚ) / 2)
    (by norm_num) (by norm_num) (by rw [abs_of_nonneg (by positivity)]; linarith)
    (by rw [abs_of_nonneg (by positivity)]; linarith)).2
  have b1 := wk.w2
  have b2 := wk.h2
  refine OkOrExit.bind (t5.use (v := fl) (by simp) (by
    rw [half_div (by omega), ok_bind, half_div (by omega), ok_bind, asInput_map_some, ok_bind]
    exact hfl)).orExit ?_
  rintro _ h5 ⟨hfl', rfl⟩
  rw [hfl']
  have ifl : Img P ow oh 1 fl := wk.img P (by omega) (by omega)
  have hbig : (ow + 2 * 1) * (oh + 2 * 1) ≤ 258 * 258 := Nat.mul_le_mul (by omega) (by omega)
  obtain ⟨Lm, -, hbo⟩ := add_border_correct ifl (Or.inl rfl) (b := 1) (by omega) (hex := "000000".toList) (r := 0) (g := 0) (bl := 0)
    (by decide) (by omega) (by omega)
  refine OkOrExit.bind (P := fun r h' => ∃ i, r = (some ⟨i, (bordered ow oh 1 0 0 0 Lm 1 fl).map some⟩, some (ow + 2, oh + 2)) ∧
    Track hp h' (i :: [i5])) (HOk.orExit ((hbo h5).mono ?_)) ?_
  · rintro ⟨r1, r2⟩ h' ⟨e, hr⟩
    cases r1 with
    | none => exact absurd hr (t5.not_oom hf)
    | some b =>
      dsimp only at e hr
      exact ⟨b.id, by rw [e, ← hr.2], t5.fresh hr.1⟩
  rintro _ h6 ⟨i6, rfl, t6⟩
  dsimp only
  refine OkOrExit.bind (t6.free (i := i5) (Y := [i6]) (List.Perm.swap _ _ _)).orExit ?_
  rintro _ h7 t7
  refine OkOrExit.bind (segmentImage_ok P hf wk (by unfold bordered; rw [mkImg_length, Nat.mul_one]) t7).orExit ?_
  rintro _ h8 ⟨j8, k8, seg, rfl, hseg, t8⟩
  dsimp only
  refine OkOrExit.bind (t8.use (by simp) (asInput_map_some seg)).orExit ?_
  rintro seg h8 ⟨rfl, rfl⟩
  refine OkOrExit.bind ((count_colors_correct (by omega) (by omega) hseg (by omega) h8).mono (Q := fun _ h' => Track hp h' [j8, k8])
    fun r h' h => ⟨by rw [h.1]; exact t8.live, h.2.1.trans t8.fails, t8.next.trans h.2.2.1⟩).orExit ?_
  rintro n h9 t9
  split_ifs with hn
  · refine OkOrExit.bind (t9.free (List.Perm.refl _)).orExit ?_
    rintro _ _ _
    exact OkOrExit.exit
  · refine OkOrExit.bind (t9.yields hf (convert_to_binary_correct (wk.img P (le_refl 4) hseg) _ _
      (r := 255) (g := 0) (b := 0) (by decide))).orExit ?_
    rintro _ h10 ⟨i10, rfl, t10⟩
    generalize hbin : mkPx (ow * oh) 1 _ = bin at *
    have hbinl : bin.length = ow * oh := by rw [← hbin]; simp
    refine OkOrExit.bind (t10.free (i := j8) (Y := [i10, k8]) (List.Perm.swap _ _ _)).orExit ?_
    rintro _ h11 t11
    dsimp only
    refine OkOrExit.bind (t11.use (v := some bin) (by simp) (by rw [asInput_map_some, ok_bind]; rfl)).orExit ?_
    rintro _ _ ⟨rfl, rfl⟩
    have mo : MorphOK P ow oh 12 bin := ⟨by omega, by omega, hbinl, by omega, by omega, by omega, by omega, by omega⟩
    refine OkOrExit.bind (t11.yields hf (closing_yields mo)).orExit ?_
    rintro _ h12 ⟨i12, rfl, t12⟩
    refine OkOrExit.bind (t12.free (i := i10) (Y := [i12, k8]) (List.Perm.swap _ _ _)).orExit ?_
    rintro _ h13 t13
    dsimp only
    generalize hclo : binImg ow oh _ = clo at *
    have hclol : clo.length = ow * oh := by rw [← hclo]; exact binImg_length _ _ _
    obtain ⟨resp, hresp, hrespl, -⟩ := foerstner_safe_partial (wk.img P (ch := 1) (by omega) (by omega)) (by omega) (by omega) (σ := 3 / 2)
      (d := clo) (by norm_num [abs_of_nonneg]) (Or.inl (by
        have : halfWidth (3 / 2) ≤ 100 := by decide +kernel
        omega))
    refine OkOrExit.bind (nextImage_ok hf t13 hresp).orExit ?_
    rintro _ h14 ⟨i14, rfl, t14⟩
    exact OkOrExit.pure ⟨i14, k8, ow, oh, resp, rfl, wk, hrespl, t14⟩

end FlatCV.Props
