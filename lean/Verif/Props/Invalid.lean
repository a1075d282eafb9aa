/-
C09: invalid arguments.
-/
import Verif.Props.Blur
import Verif.Props.BwSmart
import Verif.Props.Color
import Verif.Props.Draw
import Verif.Props.Foerstner
import Verif.Props.Geometry
import Verif.Props.Gray
import Verif.Props.Histogram
import Verif.Props.Morph
import Verif.Props.Otsu
import Verif.Props.Peaks
import Verif.Props.Resize
import Verif.Props.Sobel
import Verif.Props.Trim
import Verif.Props.Warp
import Verif.Props.Watershed
import Verif.Model.Extract

namespace FlatCV.Props
open Model Spec

variable {P : Plat}

/-- C09 for the functions on unsigned sizes: without an image or with a size of 0 every function returns NULL and the heap is
as before.  Not covered here: the functions with signed sizes (below), and `fcv_extract_document` and
`fcv_extract_document_auto`, of which it is false (`extract_document_aborts`). -/
theorem invalid_rejected_partial {data : Option (List UInt8)} {w h : Nat} (hbad : data = none ∨ w = 0 ∨ h = 0) (hp : Heap) :
    Rejects (fcv_flip_x P w h data) hp ∧ Rejects (fcv_flip_y P w h data) hp ∧ Rejects (fcv_transpose P w h data) hp ∧
    Rejects (fcv_transverse P w h data) hp ∧ Rejects (fcv_rotate_90_cw P w h data) hp ∧ Rejects (fcv_rotate_180 P w h data) hp ∧
    Rejects (fcv_rotate_270_cw P w h data) hp ∧
    (∀ ch x y nw nh, IsU32 nw → IsU32 nh → Rejects (fcv_crop P w h ch data x y nw nh) hp) ∧
    Rejects (fcv_rgba_to_grayscale P w h data) hp ∧ Rejects (fcv_single_to_multichannel P w h data) hp ∧
    Rejects (fcv_grayscale P w h data) hp ∧ Rejects (fcv_grayscale_stretch P w h data) hp ∧
    (∀ ex r, Rejects (fcv_apply_gaussian_blur P ex w h r data) hp) ∧
    (∀ b, Rejects (fcv_otsu_threshold_rgba P w h b data) hp) ∧
    (∀ ex b, Rejects (fcv_bw_smart P ex w h b data) hp) ∧
    (∀ ch, Rejects (fcv_sobel_edge_detection P w h ch data) hp) ∧
    (∀ s, Rejects (fcv_foerstner_corner P w h data s) hp) ∧
    (∀ md a r, Rejects (fcv_corner_peaks P w h data md a r) hp) ∧
    (∀ ms n b, Rejects (fcv_watershed_segmentation P w h data ms n b) hp) ∧
    (∀ rx ry, fcv_resize P w h rx ry data hp = .ok ((none, none), hp)) ∧
    (∀ ch, fcv_generate_histogram P w h ch data hp = .ok ((none, none), hp)) ∧
    (IsU32 w → IsU32 h → ∀ ch hex b, fcv_add_border P w h ch hex b data hp = .ok ((none, none), hp)) := by
  obtain ⟨f1, f2, f3, f4, f5, f6, f7⟩ := flips_reject (P := P) (w := w) (h := h) (data := data) hp (by tauto)
  obtain ⟨g1, g2, g3, g4⟩ := gray_rejects (P := P) (w := w) (h := h) (data := data) hp hbad
  refine ⟨f1, f2, f3, f4, f5, f6, f7, fun ch x y nw nh u1 u2 => crop_rejects hp u1 u2 (by tauto), g1, g2, g3, g4,
    fun ex r => blur_rejects hp (by tauto), fun b => otsu_rejects hp b hbad, fun ex b => bw_rejects hp b hbad,
    fun ch => sobel_rejects P w h ch data (by tauto) hp, fun s => foerstner_rejects P w h data s hbad hp,
    fun md a r => corner_peaks_rejects hp (by tauto), fun ms n b => watershed_rejects b data ms n (by tauto) hp,
    fun rx ry => resize_rejects (by tauto), fun ch => ?_, fun uw uh ch hex b => add_border_rejects hp uw uh (by tauto)⟩
  rcases hbad with rfl | hb
  · rfl
  · exact histogram_rejects (by tauto) hp data

/-- C09 for the functions on signed sizes. -/
theorem invalid_signed_rejected_partial {data : Option (List UInt8)} {w h : Int} (hbad : data = none ∨ w ≤ 0 ∨ h ≤ 0) (hp : Heap) :
    (∀ fg bg, Rejects (fcv_convert_to_binary P data w h fg bg) hp) ∧
    (∀ r, Rejects (fcv_binary_dilation_disk P data w h r) hp ∧ Rejects (fcv_binary_erosion_disk P data w h r) hp ∧
      Rejects (fcv_binary_closing_disk P data w h r) hp ∧ Rejects (fcv_binary_opening_disk P data w h r) hp) ∧
    (∀ ch, fcv_trim P w h ch data hp = .ok ((none, w, h), hp)) ∧
    (∀ ch t, fcv_trim_threshold P w h ch data t hp = .ok ((none, w, h), hp)) ∧
    (∀ ow oh m, fcv_apply_matrix_3x3 P w h data ow oh m hp = .ok ((none, m), hp)) :=
  ⟨fun fg bg => convert_to_binary_rejects hp (by tauto), fun r => morphology_rejects P data w h r hp (by tauto),
    fun ch => trim_rejects w h data hp (by tauto), fun ch t => trim_threshold_rejects w h data t hp (by tauto),
    fun ow oh m => apply_rejects P hp (by tauto)⟩

/-- For the extraction of a document only a missing image is rejected. -/
theorem extract_document_null (M : MathLib) (w h ow oh : Nat) (hp : Heap) :
    Rejects (fcv_extract_document P M w h none ow oh) hp ∧
    fcv_extract_document_auto P M w h none hp = .ok ((none, none), hp) := ⟨rfl, rfl⟩

/-- C09 is false for the extraction of a document from an image without pixels, or with 2^31 or more columns or rows: an
assertion terminates the program. -/
theorem extract_document_aborts (M : MathLib) {w h : Nat} (d : List UInt8) (ow oh : Nat) (hp : Heap) (hw : w < 4294967296)
    (hh : h < 4294967296) (hbad : w = 0 ∨ h = 0 ∨ 2147483648 ≤ w ∨ 2147483648 ≤ h) :
    fcv_extract_document P M w h (some d) ow oh hp = .error (.comp .exit) ∧
    fcv_extract_document_auto P M w h (some d) hp = .error (.comp .exit) := by
  have hs : i32OfU32 w ≤ 0 ∨ i32OfU32 h ≤ 0 := by
    unfold i32OfU32
    rcases hbad with rfl | rfl | hb | hb
    · left; simp
    · right; simp
    · left; split <;> omega
    · right; split <;> omega
  have e : fcv_detect_corners P M.ex M.at2 M.asn (some d) (i32OfU32 w) (i32OfU32 h) hp = .error (.comp .exit) := by
    unfold fcv_detect_corners
    dsimp only
    simp only [if_pos hs]
    rfl
  constructor
  · unfold fcv_extract_document
    dsimp only
    rw [hm_bind, e]
  · unfold fcv_extract_document_auto
    dsimp only
    rw [hm_bind, e]

end FlatCV.Props
