/-
C112-C115: the Haskell bindings.
-/
import Verif.Lemmas.Bindings
import Verif.Props.Blur
import Verif.Props.BwSmart
import Verif.Props.CliShape
import Verif.Props.Color
import Verif.Props.Draw
import Verif.Props.Foerstner
import Verif.Props.Geometry
import Verif.Props.Gray
import Verif.Props.Histogram
import Verif.Props.Morph
import Verif.Props.Otsu
import Verif.Props.Perspective
import Verif.Props.Resize
import Verif.Props.Sobel
import Verif.Props.TidyDetect
import Verif.Props.Trim
import Verif.Props.Warp
import Verif.Props.Watershed

namespace FlatCV.Props

open Model Spec

variable {P : Plat} {M : MathLib} {w h : Nat} {d : List UInt8}

theorem wrap32_len {w h : Nat} (hs : w * h * 4 < 4294967296) : u32OfInt (Hs.wrap32 ((w : Int) * h * 4)) = w * h * 4 := by
  have e : (w : Int) * h * 4 = ((w * h * 4 : Nat) : Int) := by push_cast; rfl
  rw [e]
  unfold Hs.wrap32 i32OfU32 u32OfInt
  split <;> omega

/-! ### C113: what the vectors contain -/

/-- C113: the bindings of the exact operations on RGBA images hand over the documented image. -/
theorem bindings_exact (im : Img P w h 4 d) (hs : w * h * 4 < 4294967296) :
    Hands (Hs.grayscale P w h d) (grayRGBA (w * h) (lumaAt d)) ∧
    Hands (Hs.rgbaToGrayscale P w h d) (gray (w * h) d) ∧
    Hands (Hs.flipX P w h d) (Spec.flipX w h d) ∧
    Hands (Hs.flipY P w h d) (Spec.flipY w h d) ∧
    Hands (Hs.transpose P w h d) (Spec.transpose w h d) ∧
    Hands (Hs.transverse P w h d) (Spec.transverse w h d) ∧
    Hands (Hs.rotate90CW P w h d) (rot90 w h d) ∧
    Hands (Hs.rotate180 P w h d) (rot180 w h d) ∧
    Hands (Hs.rotate270CW P w h d) (rot270 w h d) := by
  have u4 := u32_small hs
  have u1 : u32 (w * h) = w * h := u32_small (by omega)
  have hc : h * w = w * h := Nat.mul_comm _ _
  refine ⟨hands_of_yields (grayscale_correct im (by omega)) ?_, hands_of_yields (rgba_to_grayscale_correct im) ?_,
    hands_of_yields (flip_x_correct im) ?_, hands_of_yields (flip_y_correct im) ?_, hands_of_yields (transpose_correct im) ?_,
    hands_of_yields (transverse_correct im) ?_, hands_of_yields (rotate_90_correct im) ?_, hands_of_yields (rotate_180_correct im) ?_,
    hands_of_yields (rotate_270_correct im) ?_⟩
  · rw [u4]; simp [grayRGBA]
  · rw [u1]; simp [gray]
  · rw [u4]; simp [Spec.flipX]
  · rw [u4]; simp [Spec.flipY]
  · rw [u4]; simp [Spec.transpose, hc]
  · rw [u4]; simp [Spec.transverse, hc]
  · rw [u4]; simp [rot90, hc]
  · rw [u4]; simp [rot180]
  · rw [u4]; simp [rot270, hc]

/-- C113: expanding gray to RGBA. -/
theorem binding_single_to_multichannel (im : Img P w h 1 d) (hs : w * h * 4 < 4294967296) :
    Hands (Hs.singleToMultichannel P w h d) (grayRGBA (w * h) fun i => px1 1 d i 0) := by
  have hm := P.mod_ge
  refine hands_of_yields (single_to_multichannel_correct im (by unfold Plat.szMax; omega)) ?_
  rw [u32_small hs]
  simp [grayRGBA]

/-- C113: contrast stretching and Otsu thresholding. -/
theorem bindings_thresholds (im : Img P w h 4 d) (hs : w * h * 4 < 4294967296) :
    (∃ low high, IsLow (w * h) (lumaAt d) low ∧ IsHigh (w * h) (lumaAt d) high ∧ low ≤ high ∧
      Hands (Hs.grayscaleStretch P w h d) (grayRGBA (w * h) fun i => stretch low high (lumaAt d i))) ∧
    ∃ t, t < 256 ∧ FirstMax (w * h) (lumaAt d) (Spec.Usable (w * h) (lumaAt d)) t ∧
      ∀ dbl, Hands (Hs.otsuThreshold P w h dbl d) (grayRGBA (w * h) fun i => otsuValue dbl t (lumaAt d i)) := by
  have u4 := u32_small hs
  constructor
  · obtain ⟨low, high, h1, h2, h3, hy⟩ := grayscale_stretch_correct im (by omega)
    exact ⟨low, high, h1, h2, h3, hands_of_yields hy (by rw [u4]; simp [grayRGBA])⟩
  · obtain ⟨t, h1, h2, hy⟩ := otsu_correct im (by omega)
    exact ⟨t, h1, h2, fun dbl => hands_of_yields (hy dbl) (by rw [u4]; simp [grayRGBA])⟩

/-- C113: cropping. -/
theorem binding_crop {ch x y nw nh : Nat} (im : Img P w h ch d) (hch : 0 < ch) (hnw : 0 < nw) (hnh : 0 < nh)
    (hx : x + nw ≤ w) (hy : y + nh ≤ h) (hs : nw * nh * ch < 4294967296) :
    Hands (Hs.crop P w h ch x y nw nh d) (Spec.crop w ch d x y nw nh) := by
  refine hands_of_yields (crop_correct im hch hnw hnh hx hy) ?_
  rw [u32_small hs]
  simp [Spec.crop]

/-- C113: trimming hands over the part inside the trimming box, and its size. -/
theorem bindings_trim {ch : Nat} (im : Img P w h ch d) (hch : 0 < ch) (hs : w * h * ch < 2147483648) :
    (∃ l r t b, TrimBox Same (px w ch d) w h ch l r t b ∧
      HandsSized (Hs.trim P w h ch d) ((r - l : Nat) : Int) ((b - t : Nat) : Int) (Spec.crop w ch d l t (r - l) (b - t))) ∧
    ∀ {q : ℚ} {tol : UInt8}, trimTolerance q = .ok tol → ∃ l r t b, TrimBox (Within tol.toNat) (px w ch d) w h ch l r t b ∧
      HandsSized (Hs.trimThreshold P w h ch (.fin q) d) ((r - l : Nat) : Int) ((b - t : Nat) : Int)
        (Spec.crop w ch d l t (r - l) (b - t)) := by
  have w1 : w ≤ w * h := Nat.le_mul_of_pos_right _ im.h_pos
  have w2 : h ≤ w * h := Nat.le_mul_of_pos_left _ im.w_pos
  have w3 : w * h ≤ w * h * ch := Nat.le_mul_of_pos_right _ hch
  have key : ∀ {m : HM (Option (Buf UInt8) × Int × Int)} {l r t b : Nat}, r ≤ w → b ≤ h → TrimsTo m w ch d l r t b →
      HandsSized (Hs.trimmed m ch) ((r - l : Nat) : Int) ((b - t : Nat) : Int) (Spec.crop w ch d l t (r - l) (b - t)) := by
    intro m l r t b hr hb hm hp
    unfold Hs.trimmed
    refine HOk.bind (hm hp) ?_
    rintro ⟨v, a, c⟩ h' ⟨e1, e2, hv⟩
    dsimp only at e1 e2 hv ⊢
    subst e1 e2
    cases v with
    | none => exact HOk.pure hv
    | some buf =>
      refine HOk.pure ⟨rfl, rfl, hv.1, shows_of_cells hv.2 ?_⟩
      have e : ((r - l : Nat) : Int) * ((b - t : Nat) : Int) * (ch : Int) = (((r - l) * (b - t) * ch : Nat) : Int) := by push_cast; rfl
      have hle : (r - l) * (b - t) * ch ≤ w * h * ch :=
        Nat.mul_le_mul_right _ (Nat.mul_le_mul (by omega) (by omega))
      rw [e]
      have hl : (Spec.crop w ch d l t (r - l) (b - t)).length = (r - l) * (b - t) * ch := by simp [Spec.crop]
      rw [hl]
      unfold Hs.wrap32 i32OfU32 u32OfInt
      split <;> omega
  constructor
  · obtain ⟨l, r, t, b, hbox, ht⟩ := trim_correct im hch (by omega) (by omega) (by omega)
    exact ⟨l, r, t, b, hbox, key hbox.r_le hbox.b_le ht⟩
  · intro q tol hq
    obtain ⟨l, r, t, b, hbox, ht⟩ := trim_threshold_correct im hch (by omega) (by omega) (by omega) hq
    exact ⟨l, r, t, b, hbox, key hbox.r_le hbox.b_le ht⟩

/-- Text without a NUL reaches C as it is. -/
theorem cstring_eq {t : List Char} (h : '\x00' ∉ t) : Hs.cstring t = t := by
  unfold Hs.cstring
  rw [List.takeWhile_eq_self_iff]
  intro c hc
  simp only [ne_eq, decide_eq_true_eq]
  rintro rfl
  exact h hc

/-- C113: borders. -/
theorem binding_border {ch b : Nat} (im : Img P w h ch d) (hch : ch = 1 ∨ ch = 3 ∨ ch = 4) (hb : 0 < b) {hex : List Char}
    (hz : '\x00' ∉ hex) {r g bl : UInt8} (hcol : fcv_parse_hex_color hex = (r, g, bl))
    (hs : (w + 2 * b) * (h + 2 * b) * ch < 4294967296) :
    ∃ L, IsLuma r g bl L ∧ HandsSized (Hs.addBorder P w h ch hex b d) (w + 2 * b) (h + 2 * b) (bordered w h ch r g bl L b d) := by
  have hm := P.mod_ge
  obtain ⟨L, hL, hy⟩ := add_border_correct im hch hb hcol (by omega) (by unfold Plat.szMax; omega)
  refine ⟨L, hL, ?_⟩
  unfold Hs.addBorder
  rw [cstring_eq hz]
  exact handsSized_of_yields hy (by simp [bordered]) hs

/-- C113: drawing works on a copy and paints the circle or disk of C29 and C30. -/
theorem bindings_draw {ch : Nat} (im : Img P w h ch d) (hw : w < 2 ^ 31) (hh : h < 2 ^ 31) (hch : 0 < ch) {hex : List Char}
    (hz : '\x00' ∉ hex) {r g b : UInt8} (hc : fcv_parse_hex_color hex = (r, g, b)) {ρ cx cy : ℚ} (h0 : 0 ≤ ρ)
    (h1 : ρ ≤ 5 * 10 ^ 8) (h2 : |cx| ≤ 10 ^ 9) (h3 : |cy| ≤ 10 ^ 9) :
    (∃ L, IsLuma r g b L ∧ Hs.drawCircle P w h ch hex (.fin ρ) (.fin cx) (.fin cy) d = .ok (painted w h ch r g b L
      (fun x y => CircleOff (trunc ρ) (x - trunc cx) (y - trunc cy)) d)) ∧
    ∃ L, IsLuma r g b L ∧ Hs.drawDisk P w h ch hex (.fin ρ) (.fin cx) (.fin cy) d = .ok (painted w h ch r g b L
      (fun x y => DiskOff (trunc ρ) (x - trunc cx) (y - trunc cy)) d) := by
  unfold Hs.drawCircle Hs.drawDisk
  rw [cstring_eq hz]
  exact ⟨circle_draws P w h ch d hex r g b ρ cx cy im hw hh hch hc h0 h1 h2 h3,
    disk_draws P w h ch d hex r g b ρ cx cy im hw hh hch hc h0 h1 h2 h3⟩

/-- C113: watershed segmentation. -/
theorem binding_watershed {ms : List (Dbl × Dbl)} (bd : Bool) (im : Img P w h 1 d) (hms : MarkersInside w h ms)
    (h0 : 0 < ms.length) (hN : ms.length < 2 ^ 32) (hn : w * h * 4 < 4294967296) (hsz : w * h * 12 ≤ P.szMax)
    {hp : Heap} (hf : ∀ i, hp.fails i = false) :
    ∃ L, Regions w h ms L ∧ BoundaryOnly w h L ∧ HOk (Hs.watershedSegmentation P w h ms bd d) hp fun r h' =>
      ∃ v, r = some v ∧ Shows v (paintRegions w h L) ∧ h'.live = v.block.id :: hp.live := by
  obtain ⟨L, hy, h1, _, h3⟩ := watershed_correct bd im hms h0 hN (by omega) hsz
  refine ⟨L, h1, h3, ?_⟩
  unfold Hs.watershedSegmentation
  refine HOk.bind (HOk.malloc (Q := fun r h' => ∃ b, r = some b ∧ b.id = hp.next ∧ h' = ⟨hp.next + 1, hp.next :: hp.live, hp.fails⟩) ?_ ?_) ?_
  · intro e; rw [hf] at e; cases e
  · intro _; exact ⟨_, rfl, rfl, rfl⟩
  · rintro r g ⟨b, rfl, hb, rfl⟩
    dsimp only
    rw [u32_small (show ms.length < 4294967296 by omega)]
    refine HOk.bind (hands_of_yields (n := u32 (w * h * 4)) hy ?_ _) ?_
    · rw [u32_small hn]
      simp [paintRegions]
    · intro r g hr
      cases r with
      | none =>
        obtain ⟨_, _, _, i, _, _, hi⟩ := hr
        exact absurd hi (by simp [hf])
      | some v =>
        obtain ⟨⟨h1, h2, h3, h4⟩, hv⟩ := hr
        dsimp only at h1 h2 h3 h4 ⊢
        refine HOk.bind (P := fun _ g' => g'.live = v.block.id :: hp.live) ?_ ?_
        · refine ⟨(), { g with live := g.live.erase b.id }, ?_, ?_⟩
          · unfold free
            rw [if_pos (by rw [h1, hb]; simp)]
          · dsimp only
            rw [h1, hb, List.erase_cons_tail (by simp; omega)]
            simp
        · intro _ g' hg'
          exact HOk.pure ⟨v, rfl, hv, hg'⟩

/-- C113: histograms. -/
theorem binding_histogram {ch : Nat} (im : Img P w h ch d) (hch : 0 < ch) (hn : w * h * 200 < 2 ^ 32) :
    ∃ m, IsMaxBar (histBar (w * h) ch d) m ∧ 0 < m ∧
      HandsSized (Hs.generateHistogram P w h ch d) 256 200 (barChart fun c v => 200 * histBar (w * h) ch d c v / m) := by
  obtain ⟨m, h1, h2, hy⟩ := histogram_correct im hch hn
  refine ⟨m, h1, h2, handsSized_of_yields hy ?_ (by norm_num)⟩
  generalize (fun c v => 200 * histBar (w * h) ch d c v / m) = f
  unfold barChart
  rw [mkImg_length]

/-- C113: resizing. -/
theorem binding_resize {rx ry : ℚ} (F : Fit P w h d rx ry) (hs : outDim w rx * outDim h ry * 4 < 4294967296) :
    ∃ out, HandsSized (Hs.resize P w h (.fin rx) (.fin ry) d) (outDim w rx) (outDim h ry) out ∧
      (1 ≤ rx → 1 ≤ ry → Interpolated rx ry w h d (outDim w rx) (outDim h ry) out) := by
  by_cases h1 : 1 ≤ rx ∧ 1 ≤ ry
  · obtain ⟨out, hy, hi⟩ := resize_enlarge F h1.1 h1.2
    exact ⟨out, handsSized_of_yields hy hi.1 hs, fun _ _ => hi⟩
  · obtain ⟨out, hy, hl⟩ := resize_safe F
    exact ⟨out, handsSized_of_yields hy hl hs, fun a b => absurd ⟨a, b⟩ h1⟩

/-- C113: in-place operations work on a copy; thresholding maps the bytes one by one. -/
theorem binding_global_threshold {n : Nat} {t : UInt8} (hn : n = d.length) :
    Hs.applyGlobalThreshold n t d = .ok ((d.map fun v => if t < v then (255 : UInt8) else 0).map some) := by
  unfold Hs.applyGlobalThreshold
  obtain ⟨c, e, hl, hc⟩ := global_threshold_correct (n := n) (d := d) (t := t) (by omega)
  rw [e]
  congr 1
  apply List.ext_getElem?
  intro k
  rw [hc, List.getElem?_map, List.getElem?_map]
  split
  · rfl
  · rw [List.getElem?_eq_none (by omega)]
    rfl

/-! ### C112: every element of a returned vector can be read -/

/-- C112 for the functions whose result has the size of the image and is not covered by `Hands` above: whatever the arguments,
NaN and infinities included. -/
theorem vectors_readable (hs : w * h * 4 < 4294967296) :
    (∀ r, Readable (w * h * 4) (Hs.gaussianBlur P M w h r d)) ∧
    (∀ b, Readable (w * h * 4) (Hs.bwSmart P M w h b d)) ∧
    (∀ b, Readable (w * h * 4) (Hs.otsuThreshold P w h b d)) ∧
    Readable (w * h * 4) (Hs.grayscale P w h d) ∧
    Readable (w * h * 4) (Hs.singleToMultichannel P w h d) :=
  ⟨fun _ => readable_of_shaped blur_shaped hs, fun _ => readable_of_shaped bw_shaped hs, fun _ => readable_of_shaped otsu_shaped hs,
    readable_of_shaped grayscale_shaped hs, readable_of_shaped s2m_shaped hs⟩

/-- C112 for cropping, whatever the arguments. -/
theorem crop_readable {ch x y nw nh : Nat} (hch : 0 < ch) (hs : nw * nh * ch < 4294967296) :
    Readable (nw * nh * ch) (Hs.crop P w h ch x y nw nh d) := readable_of_shaped (crop_shaped hch) hs

/-- C112 for the functions that report a size, whatever the arguments. -/
theorem sized_readable (hw : IsU32 w) (hh : IsU32 h) :
    (∀ x y, ReadableSized 4 (Hs.resize P w h x y d)) ∧
    (∀ hex b, ReadableSized 4 (Hs.addBorder P w h 4 hex b d)) ∧
    ReadableSized 4 (Hs.generateHistogram P w h 4 d) :=
  ⟨fun _ _ => readableSized_of_shaped resize_shaped, fun _ _ => readableSized_of_shaped (border_shaped hw hh),
    readableSized_of_shaped histogram_shaped⟩

/-- C112 for perspective transforms, whatever the matrix. -/
theorem apply_matrix_readable {ow oh : Nat} {iw ih : Int} {m : Mat Dbl} (hs : ow * oh * 4 < 4294967296) :
    Readable (ow * oh * 4) (Hs.applyMatrix3x3 P iw ih ow oh m d) := by
  unfold Hs.applyMatrix3x3
  rw [wrap32_len hs, ← u32_small hs]
  have : Shaped (ow * oh * 4) (do
      let r ← fcv_apply_matrix_3x3 P iw ih (some d) ow oh (some m)
      pure r.1) := by
    intro hp
    refine HPart.bind (apply_shaped hp) ?_
    intro r h' hr
    exact HPart.pure fun b e => (hr b e).2.2
  have := readable_of_shaped this hs
  rwa [u32_small hs] at this ⊢

/-- C112 for document extraction. -/
theorem extract_readable {ow oh : Nat} (hw : IsU32 ow) (hh : IsU32 oh) (hs : ow * oh * 4 < 4294967296) :
    Readable (ow * oh * 4) (Hs.extractDocument P M w h ow oh d) ∧ ReadableSized 4 (Hs.extractDocumentAuto P M w h d) := by
  constructor
  · refine readable_of_shaped ?_ hs
    unfold fcv_extract_document
    intro hp
    refine HPart.seq fun c h1 => ?_
    exact (warp_shaped hw hh h1).mono fun r _ hr b e => (hr b e).2.2
  · refine readableSized_of_shaped ?_
    intro hp
    unfold fcv_extract_document_auto
    dsimp only
    refine HPart.seq fun c h1 => ?_
    refine HPart.bind (P := fun s _ => IsU32 s.1 ∧ IsU32 s.2) ?_ ?_
    · refine (HPart.use (Q := fun s => IsU32 s.1 ∧ IsU32 s.2) ?_).mono fun r _ hr => hr.1
      unfold documentSize
      refine Part.bind (Part.trivial _) fun _ _ => Part.bind (Part.trivial _) fun _ _ => Part.bind (Part.trivial _) fun _ _ =>
        Part.bind (Part.trivial _) fun _ _ => Part.bind documentSide_u32 fun a ha => Part.bind documentSide_u32 fun b hb => Part.pure ⟨ha, hb⟩
    · rintro ⟨a, b⟩ h2 ⟨ha, hb⟩
      refine HPart.bind (warp_shaped ha hb h2) ?_
      intro r h3 hr
      exact HPart.pure fun x e => ⟨a, b, rfl, (hr x e).1, (hr x e).2.1, ha, hb, (hr x e).2.2⟩

/-- C112 fails for the morphological operations: for every gray image and every radius the vector is four times as long as the
memory. -/
theorem morphology_exposes {r : Nat} (ok : MorphOK P w h r d) (hs : w * h * 4 < 4294967296) :
    Exposes (Hs.binaryDilationDisk P w h r d) ∧ Exposes (Hs.binaryErosionDisk P w h r d) ∧
    Exposes (Hs.binaryClosingDisk P w h r d) ∧ Exposes (Hs.binaryOpeningDisk P w h r d) := by
  have hpos : 0 < w * h := Nat.mul_pos ok.w_pos ok.h_pos
  have e := wrap32_len hs
  have l : ∀ p, (binImg w h p).length < u32OfInt (Hs.wrap32 ((w : Int) * h * 4)) := by
    intro p
    rw [e]
    unfold binImg
    rw [mkImg_length]
    omega
  exact ⟨exposes_of_yields (dilation_correct ok) (l _), exposes_of_yields (erosion_correct ok) (l _),
    exposes_of_yields (closing_yields ok) (l _), exposes_of_yields (opening_yields ok) (l _)⟩

/-- C112 fails for the conversion to binary: for every RGBA image the vector is four times as long as the memory. -/
theorem convert_to_binary_exposes (im : Img P w h 4 d) (hs : w * h * 4 < 4294967296) {fg bg : List Char} :
    Exposes (Hs.convertToBinary P w h fg bg d) := by
  have hpos : 0 < w * h := Nat.mul_pos im.w_pos im.h_pos
  rcases hc : fcv_parse_hex_color (Hs.cstring fg) with ⟨r, g, b⟩
  refine exposes_of_yields (convert_to_binary_correct im _ _ hc) ?_
  rw [wrap32_len hs, mkPx_length]
  omega

/-- C112 fails for edge detection on RGBA images: the vector is four times as long as the memory.  On gray images it is right. -/
theorem sobel_exposes (im : Img P w h 4 d) (h8 : w * h * 8 ≤ P.szMax) (hs : w * h * 4 < 4294967296) :
    Exposes (Hs.sobelEdgeDetection P w h 4 d) := by
  have hpos : 0 < w * h := Nat.mul_pos im.w_pos im.h_pos
  obtain ⟨out, hy, hm, _⟩ := sobel_run (Or.inr rfl) im h8
  refine exposes_of_yields hy ?_
  rw [u32_small hs, hm.len]
  omega

/-- C113 for edge detection on gray images. -/
theorem binding_sobel_gray (im : Img P w h 1 d) (h8 : w * h * 8 ≤ P.szMax) (hw : w < 2147483648) (hh : h < 2147483648)
    (hs : w * h < 4294967296) :
    ∃ out, Hands (Hs.sobelEdgeDetection P w h 1 d) out ∧ EdgeMap w h (edgeSq w h (edgeInput w h 1 d)) out := by
  obtain ⟨out, hy, hm⟩ := sobel_normalised_partial (Or.inl rfl) im h8 hw hh
  exact ⟨out, hands_of_yields hy (by rw [Nat.mul_one, u32_small hs, hm.len]), hm⟩

/-- C112 fails for corner detection: the vector is twice as long as the memory. -/
theorem foerstner_exposes (im : Img P w h 1 d) (hn : w * h * 4 < 4294967296) (h8 : w * h * 8 ≤ P.szMax) {σ : ℚ}
    (hσ : |σ| ≤ 700000000) (hfit : Fits w h (halfWidth σ)) : Exposes (Hs.foerstnerCorner P w h (.fin σ) d) := by
  have hpos : 0 < w * h := Nat.mul_pos im.w_pos im.h_pos
  obtain ⟨out, hy, hl, _⟩ := foerstner_safe_partial im (by omega) h8 hσ hfit
  refine exposes_of_yields hy ?_
  rw [u32_small hn, hl]
  omega

/-- A photo of one pixel. -/
def dot : List UInt8 := [10, 20, 30, 255]

example : Img Plat.lp64 1 1 4 dot := by constructor <;> decide

/-- The element of index 1 of the vector of `call`: its value, or the fault. -/
def second (call : HM (Option Hs.Vec)) : Option (Except Fault UInt8) :=
  match call Heap.fresh with
  | .ok (some v, _) => some (v.read 1)
  | _ => none

/-- Concrete case: the second byte of the result can be read after flipping, and lies outside the memory after dilation. -/
theorem second_byte :
    second (Hs.flipX Plat.lp64 1 1 dot) = some (.ok 20) ∧
    second (Hs.binaryDilationDisk Plat.lp64 1 1 1 [255]) = some (.error .oobRead) ∧
    second (Hs.sobelEdgeDetection Plat.lp64 1 1 4 dot) = some (.error .oobRead) := by
  decide +kernel

/-- The functions from RGBA images to RGBA images of as many pixels, according to their documentation. -/
def rgbaBindings (P : Plat) (M : MathLib) (w h : Nat) (d : List UInt8) : List (HM (Option Hs.Vec)) :=
  [Hs.grayscale P w h d, Hs.grayscaleStretch P w h d, Hs.gaussianBlur P M w h (.fin 1) d, Hs.otsuThreshold P w h true d,
    Hs.bwSmart P M w h true d, Hs.sobelEdgeDetection P w h 4 d, Hs.flipX P w h d, Hs.flipY P w h d, Hs.transpose P w h d,
    Hs.transverse P w h d, Hs.rotate90CW P w h d, Hs.rotate180 P w h d, Hs.rotate270CW P w h d,
    Hs.convertToBinary P w h ['F', 'F', 'F', 'F', 'F', 'F'] ['0', '0', '0', '0', '0', '0'] d]

/-- C112, the full statement for these functions: they only return vectors whose elements can all be read. -/
def VectorsReadable : Prop := ∀ (P : Plat) (M : MathLib) (w h : Nat) (d : List UInt8), Img P w h 4 d → w * h * 8 ≤ P.szMax →
  w * h * 4 < 4294967296 → ∀ m ∈ rgbaBindings P M w h d, Readable (w * h * 4) m

/-- C112 is false. -/
theorem not_vectorsReadable : ¬ VectorsReadable := by
  intro H
  have im : Img Plat.lp64 1 1 4 dot := by constructor <;> decide
  have := H Plat.lp64 ⟨fun _ => 0, fun _ _ => .fin 0, fun _ => .fin 0, fun x => x⟩ 1 1 dot im (by decide) (by decide) (Hs.sobelEdgeDetection Plat.lp64 1 1 4 dot) (by simp [rgbaBindings])
  obtain ⟨v, h', e, i, hi, he⟩ := sobel_exposes im (by decide) (by decide) Heap.fresh (fun _ => rfl)
  obtain ⟨out, _, hl, hr⟩ := this _ _ _ e
  have hi' : i < out.length := by rw [hl] at hi; exact_mod_cast hi
  rw [hr i hi'] at he
  cases he

/-! ### C114: memory -/

/-- C114: the functions that return a vector leave no block behind but that of the vector, whichever allocations fail and
whatever the arguments. -/
theorem bindings_managed {n : Nat} :
    Managed (Hs.grayscale P w h d) ∧ Managed (Hs.grayscaleStretch P w h d) ∧ Managed (Hs.rgbaToGrayscale P w h d) ∧
    Managed (Hs.singleToMultichannel P w h d) ∧ (∀ r, Managed (Hs.gaussianBlur P M w h r d)) ∧
    (∀ b, Managed (Hs.otsuThreshold P w h b d)) ∧ (∀ b, Managed (Hs.bwSmart P M w h b d)) ∧
    Managed (Hs.sobelEdgeDetection P w h n d) ∧ (∀ s, Managed (Hs.foerstnerCorner P w h s d)) ∧
    (∀ w h r, Managed (Hs.binaryDilationDisk P w h r d)) ∧ (∀ w h r, Managed (Hs.binaryErosionDisk P w h r d)) ∧
    (∀ w h r, Managed (Hs.binaryClosingDisk P w h r d)) ∧ (∀ w h r, Managed (Hs.binaryOpeningDisk P w h r d)) ∧
    Managed (Hs.flipX P w h d) ∧ Managed (Hs.flipY P w h d) ∧ Managed (Hs.transpose P w h d) ∧ Managed (Hs.transverse P w h d) ∧
    Managed (Hs.rotate90CW P w h d) ∧ Managed (Hs.rotate180 P w h d) ∧ Managed (Hs.rotate270CW P w h d) ∧
    (∀ x y a b, Managed (Hs.crop P w h n x y a b d)) ∧ (∀ w h f b, Managed (Hs.convertToBinary P w h f b d)) :=
  ⟨managed_of_tidy grayscale_tidy, managed_of_tidy grayscale_stretch_tidy, managed_of_tidy rgba_to_grayscale_tidy,
    managed_of_tidy single_to_multichannel_tidy, fun _ => managed_of_tidy gaussian_blur_tidy, fun _ => managed_of_tidy otsu_tidy,
    fun _ => managed_of_tidy bw_smart_tidy, managed_of_tidy sobel_tidy, fun _ => managed_of_tidy foerstner_corner_tidy,
    fun _ _ _ => managed_of_tidy dilation_tidy, fun _ _ _ => managed_of_tidy erosion_tidy, fun _ _ _ => managed_of_tidy closing_tidy,
    fun _ _ _ => managed_of_tidy opening_tidy, managed_of_tidy flip_x_tidy, managed_of_tidy flip_y_tidy, managed_of_tidy transpose_tidy,
    managed_of_tidy transverse_tidy, managed_of_tidy rotate_90_tidy, managed_of_tidy rotate_180_tidy, managed_of_tidy rotate_270_tidy,
    fun _ _ _ _ => managed_of_tidy crop_tidy, fun _ _ _ _ => managed_of_tidy convert_to_binary_tidy⟩

/-- C114 for the functions that also return a size, and for perspective transforms. -/
theorem bindings_managed_sized {ch : Nat} :
    (∀ x y, ManagedSized (Hs.resize P w h x y d)) ∧ (∀ hex b, ManagedSized (Hs.addBorder P w h ch hex b d)) ∧
    ManagedSized (Hs.generateHistogram P w h ch d) ∧ (∀ w h, ManagedSized (Hs.trim P w h ch d)) ∧
    (∀ w h t, ManagedSized (Hs.trimThreshold P w h ch t d)) ∧
    ∀ iw ih ow oh m, Managed (Hs.applyMatrix3x3 P iw ih ow oh m d) := by
  refine ⟨fun _ _ => managedSized_of_tidy resize_tidy, fun _ _ => managedSized_of_tidy add_border_tidy, managedSized_of_tidy histogram_tidy,
    fun _ _ => managed_trimmed trim_tidy, fun _ _ _ => managed_trimmed trim_threshold_tidy, fun iw ih ow oh m => managed_of_tidy ?_⟩
  intro hp
  refine tk_callWith apply_matrix_tidy (TK.start hp) ?_ ?_
  · intro h' x t
    exact tk_pure t.null
  · intro h' b x t
    exact tk_pure t.effect

/-- C114 for corner detection and document extraction: no block of their own is lost, only those of the C functions (at most two
and three). -/
theorem bindings_document_tidy_partial (hp : Heap) :
    (∀ w h, HeapSafe (Hs.detectCorners P M w h d) hp fun _ h' => ∃ L, L.length ≤ 2 ∧ HeapEffect hp h' L) ∧
    (∀ ow oh, HeapSafe (Hs.extractDocument P M w h ow oh d) hp fun r h' =>
      ∃ L, L.length ≤ 3 ∧ HeapEffect hp h' ((r.map (·.block.id)).toList ++ L)) ∧
    HeapSafe (Hs.extractDocumentAuto P M w h d) hp fun r h' =>
      ∃ L, L.length ≤ 3 ∧ HeapEffect hp h' ((r.map (·.2.2.block.id)).toList ++ L) := by
  refine ⟨fun w h => ?_, fun ow oh => ?_, ?_⟩
  · unfold Hs.detectCorners
    refine HeapSafe.bind (detect_corners_ptr_tidy_partial hp) ?_
    rintro r h' ⟨L, hL, e⟩
    cases r with
    | none => exact tk_pure ⟨L, hL, e⟩
    | some q => exact tk_free0 e.tk fun h2 t2 => tk_pure ⟨L, hL, t2.eff⟩
  · unfold Hs.extractDocument Hs.withImageData
    refine HeapSafe.bind (extract_document_tidy_partial hp) ?_
    rintro r h' ⟨L, hL, e⟩
    cases r with
    | none => exact tk_pure ⟨L, hL, e⟩
    | some q => exact tk_pure ⟨L, hL, e⟩
  · unfold Hs.extractDocumentAuto Hs.withSize
    refine HeapSafe.bind (extract_document_auto_tidy_partial hp) ?_
    rintro ⟨r, s⟩ h' ⟨L, hL, e⟩
    cases r with
    | none => exact tk_pure ⟨L, hL, e⟩
    | some q =>
      cases s with
      | none => exact tk_err
      | some s => exact tk_pure ⟨L, hL, e⟩

/-- C114 for the watershed: besides the vector at most the copy of the markers is left. -/
theorem binding_watershed_tidy_partial {ms : List (Dbl × Dbl)} {bd : Bool} (hp : Heap) :
    HeapSafe (Hs.watershedSegmentation P w h ms bd d) hp fun r h' =>
      ∃ L, L.length ≤ 1 ∧ HeapEffect hp h' ((r.map (·.block.id)).toList ++ L) ∧ (r ≠ none → L = []) := by
  unfold Hs.watershedSegmentation
  refine tk_malloc (TK.start hp) ?_ ?_
  · intro h' t
    exact tk_pure ⟨[], by simp, t.eff, fun _ => rfl⟩
  · intro h1 p t1
    refine HeapSafe.bind (managed_of_tidy watershed_tidy h1) ?_
    intro r h2 e
    cases r with
    | none => exact tk_pure ⟨[p.id], by simp, (t1.seq e).eff, fun e => absurd rfl e⟩
    | some v => exact tk_free' (t1.seq e) fun h3 t3 => tk_pure ⟨[], by simp, t3.eff, fun _ => rfl⟩

/-- C114 fails for the watershed: whenever the markers are refused, their copy is never released. -/
theorem binding_watershed_leaks {ms : List (Dbl × Dbl)} {bd : Bool} (hbad : ¬ MarkersInside w h ms)
    (hc : ∀ m ∈ ms, CoordOk m.1 ∧ CoordOk m.2) (hw : IsU32 w) (hh : IsU32 h) (hN : ms.length < 4294967296) {hp : Heap}
    (hf : hp.fails hp.next = false) :
    ∃ h', Hs.watershedSegmentation P w h ms bd d hp = .ok (none, h') ∧ h'.live = hp.next :: hp.live := by
  refine ⟨⟨hp.next + 1, hp.next :: hp.live, hp.fails⟩, ?_, rfl⟩
  have em : malloc (Dbl × Dbl) ms.length hp = .ok (some ⟨hp.next, List.replicate ms.length none⟩, ⟨hp.next + 1, hp.next :: hp.live, hp.fails⟩) := by
    unfold malloc
    rw [if_neg (by simp [hf])]
  unfold Hs.watershedSegmentation Hs.withImageData
  rw [u32_small hN, hm_bind, em]
  dsimp only
  rw [hm_bind, hm_bind, watershed_rejects_outside_partial bd hbad hc hw hh _]
  rfl

/-- C114 for the transformation between quadrilaterals: a matrix in a block of its own is handed over and the block released. -/
theorem binding_perspective_partial {s t : Corners Dbl} {hp h1 : Heap} {i : Nat} {m : Mat Dbl}
    (e : fcv_calculate_perspective_transform Arith.dbl (some s) (some t) hp = .ok (.heap i m, h1)) :
    ∃ h', Hs.calculatePerspectiveTransform s t hp = .ok (m, h') ∧ HeapEffect hp h' [] := by
  have tk := (perspective_track (R := Arith.dbl) (src := some s) (dst := some t) (TK.start hp)).2.2 _ _ e
  dsimp only at tk
  have hmem : i ∈ h1.live := tk.1.live.mem_iff.2 (by simp)
  have hs := tk_free_last tk
  have ef : free i h1 = .ok ((), { h1 with live := h1.live.erase i }) := by
    unfold free
    rw [if_pos hmem]
  refine ⟨{ h1 with live := h1.live.erase i }, ?_, (hs.2.2 _ _ ef).eff⟩
  unfold Hs.calculatePerspectiveTransform
  rw [hm_bind, e]
  dsimp only
  rw [hm_bind, ef]
  rfl

/-- C114 fails for it: whenever a coordinate is NaN or infinite, memory that was never allocated is released. -/
theorem binding_perspective_bad_free {s t : Corners Dbl} (hp : Heap)
    (h : s.any (fun v => !v.isFin) = true ∨ t.any (fun v => !v.isFin) = true) :
    Hs.calculatePerspectiveTransform s t hp = .error .badFree := by
  unfold Hs.calculatePerspectiveTransform
  rw [hm_bind, perspective_nonfinite hp (s := some s) (d := some t) (by
    rcases h with h | h
    · exact Or.inr (Or.inr ⟨s, Or.inl rfl, h⟩)
    · exact Or.inr (Or.inr ⟨t, Or.inr rfl, h⟩))]
  rfl

/-- It fails for ordinary numbers, too: four corners in one place. -/
theorem binding_perspective_degenerate :
    faultOf (Hs.calculatePerspectiveTransform ⟨dz 1, dz 1, dz 1, dz 1, dz 1, dz 1, dz 1, dz 1⟩
      ⟨dz 0, dz 0, dz 4, dz 0, dz 4, dz 2, dz 0, dz 2⟩ Heap.fresh) = some .badFree := by
  decide +kernel

/-- Concrete case: a marker outside a picture of one pixel. -/
def lostMarker : Bool :=
  match Hs.watershedSegmentation Plat.lp64 1 1 [(.fin 5, .fin 0)] false [7] Heap.fresh with
  | .ok (none, h) => h.live == [0]
  | _ => false

theorem lostMarker_eq : lostMarker = true := by decide +kernel

/-! ### C115: records -/

/-- C115: corners are stored in the order of the C struct and read back unchanged. -/
theorem corners_marshalled (c : Corners Dbl) {mem : Cells Dbl} (hl : mem.length = 8) :
    Hs.pokeCorners mem c = .ok ((cornersLayout c).map some) ∧ Hs.peekCorners ((cornersLayout c).map some) = .ok c := by
  match mem, hl with
  | [_, _, _, _, _, _, _, _], _ => exact ⟨rfl, rfl⟩

/-- C115: matrices likewise. -/
theorem matrix_marshalled (m : Mat Dbl) {mem : Cells Dbl} (hl : mem.length = 9) :
    Hs.pokeMatrix mem m = .ok ((matrixLayout m).map some) ∧ Hs.peekMatrix ((matrixLayout m).map some) = .ok m := by
  match mem, hl with
  | [_, _, _, _, _, _, _, _, _], _ => exact ⟨rfl, rfl⟩

/-- C115: a list of points becomes an array of C structs. -/
theorem points_marshalled (ms : List (Dbl × Dbl)) {mem : Cells Dbl} (hl : mem.length = 2 * ms.length) :
    Hs.pokePoints mem ms = .ok ((pointsLayout ms).map some) := by
  have key : ∀ (ms : List (Dbl × Dbl)) (k : Nat) (a b : Cells Dbl), a.length = 2 * k → b.length = 2 * ms.length →
      (ms.zipIdx k).foldlM (fun mem (p : (Dbl × Dbl) × Nat) => (do
        let mem ← Hs.pokeOff mem (16 * p.2 + 0) p.1.1
        Hs.pokeOff mem (16 * p.2 + 8) p.1.2 : CM (Cells Dbl))) (a ++ b) = .ok (a ++ (pointsLayout ms).map some) := by
    intro ms
    induction ms with
    | nil =>
      intro k a b _ hb
      rw [List.length_eq_zero_iff.1 hb]
      rfl
    | cons q ms ih =>
      intro k a b ha hb
      match b, hb with
      | x :: y :: b, hb =>
        have hb' : b.length = 2 * ms.length := by simp at hb; omega
        have e1 : Hs.pokeOff (a ++ x :: y :: b) (16 * k + 0) q.1 = .ok (a ++ some q.1 :: y :: b) := by
          unfold Hs.pokeOff wr
          rw [show (16 * k + 0) / 8 = a.length by omega, if_pos (by simp)]
          simp
        have e2 : Hs.pokeOff (a ++ some q.1 :: y :: b) (16 * k + 8) q.2 = .ok (a ++ some q.1 :: some q.2 :: b) := by
          unfold Hs.pokeOff wr
          rw [show (16 * k + 8) / 8 = a.length + 1 by omega, if_pos (by simp)]
          rw [List.set_append_right _ _ (by omega)]
          simp
        have := ih (k + 1) (a ++ [some q.1, some q.2]) b (by simp; omega) hb'
        rw [List.zipIdx_cons, List.foldlM_cons]
        dsimp only
        rw [e1, ok_bind, e2, ok_bind]
        rw [show a ++ some q.1 :: some q.2 :: b = (a ++ [some q.1, some q.2]) ++ b by simp, this]
        simp [pointsLayout]
  have := key ms 0 [] mem rfl hl
  simpa [Hs.pokePoints] using this

end FlatCV.Props
