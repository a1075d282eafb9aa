/-
C10, C11: what a call leaves on the heap.

No condition is placed on the arguments, the image or on which allocations fail: whenever the call returns, every block it
allocated has been released except the one it returns.
-/
import Verif.Lemmas.Tidy
import Verif.Model.BwSmart
import Verif.Model.Cli
import Verif.Model.Colors
import Verif.Model.Orient
import Verif.Model.Sobel

namespace FlatCV.Props
open Model Spec

variable {P : Plat} {w h : Nat} {d : Option (List UInt8)}

macro "tidy_fn" f:ident : tactic => `(tactic| (
  intro hp
  have := TK.start hp
  unfold $f
  repeat' tidy_step))

theorem remap_tidy {dst : Nat → Nat → Nat} : Tidy (remap P w h d dst) := by tidy_fn remap
theorem flip_x_tidy : Tidy (fcv_flip_x P w h d) := remap_tidy
theorem flip_y_tidy : Tidy (fcv_flip_y P w h d) := remap_tidy
theorem transpose_tidy : Tidy (fcv_transpose P w h d) := remap_tidy
theorem transverse_tidy : Tidy (fcv_transverse P w h d) := remap_tidy
theorem rotate_90_tidy : Tidy (fcv_rotate_90_cw P w h d) := remap_tidy
theorem rotate_180_tidy : Tidy (fcv_rotate_180 P w h d) := remap_tidy
theorem rotate_270_tidy : Tidy (fcv_rotate_270_cw P w h d) := remap_tidy
theorem crop_tidy {ch x y nw nh : Nat} : Tidy (fcv_crop P w h ch d x y nw nh) := by tidy_fn fcv_crop
theorem rgba_to_grayscale_tidy : Tidy (fcv_rgba_to_grayscale P w h d) := by tidy_fn fcv_rgba_to_grayscale
theorem single_to_multichannel_tidy : Tidy (fcv_single_to_multichannel P w h d) := by tidy_fn fcv_single_to_multichannel
theorem grayscale_tidy : Tidy (fcv_grayscale P w h d) := by tidy_fn fcv_grayscale
theorem grayscale_stretch_tidy : Tidy (fcv_grayscale_stretch P w h d) := by tidy_fn fcv_grayscale_stretch

macro_rules | `(tactic| tidy_lib) => `(tactic| exact crop_tidy)
macro_rules | `(tactic| tidy_lib) => `(tactic| exact rgba_to_grayscale_tidy)
macro_rules | `(tactic| tidy_lib) => `(tactic| exact single_to_multichannel_tidy)
macro_rules | `(tactic| tidy_lib) => `(tactic| exact grayscale_tidy)

theorem convert_to_binary_tidy {w h : Int} {fg bg : Option (List Char)} : Tidy (fcv_convert_to_binary P d w h fg bg) := by
  tidy_fn fcv_convert_to_binary
theorem gaussian_blur_tidy {ex : ℚ → ℚ} {radius : Dbl} : Tidy (fcv_apply_gaussian_blur P ex w h radius d) := by
  tidy_fn fcv_apply_gaussian_blur

macro_rules | `(tactic| tidy_lib) => `(tactic| exact gaussian_blur_tidy)


theorem callocD_tidy {n : Nat} : Tidy (callocD P n) := by
  intro hp
  have t := TK.start hp
  unfold callocD
  split
  · exact tk_pure t.null
  · rw [← hm_bind_pure (calloc n (0 : ℚ))]
    refine tk_calloc t ?_ ?_ <;> intros <;> refine tk_pure ?_ <;> first | exact TK.effect ‹_› | exact TK.null ‹_›
theorem mallocD_tidy {n : Nat} : Tidy (mallocD P n) := by
  intro hp
  have t := TK.start hp
  unfold mallocD
  rw [← hm_bind_pure (malloc ℚ _)]
  refine tk_malloc t ?_ ?_ <;> intros <;> refine tk_pure ?_ <;> first | exact TK.effect ‹_› | exact TK.null ‹_›

macro_rules | `(tactic| tidy_lib) => `(tactic| exact callocD_tidy)
macro_rules | `(tactic| tidy_lib) => `(tactic| exact mallocD_tidy)

set_option maxHeartbeats 2000000 in
theorem foerstner_corner_tidy {sigma : Dbl} : Tidy (fcv_foerstner_corner P w h d sigma) := by tidy_fn fcv_foerstner_corner
theorem sobelBody_tidy {n : Nat} {g : List UInt8} : Tidy (sobelBody P w h n g) := by tidy_fn sobelBody
macro_rules | `(tactic| tidy_lib) => `(tactic| exact sobelBody_tidy)
macro_rules | `(tactic| tidy_lib) => `(tactic| exact tidy_callThenFree rgba_to_grayscale_tidy fun _ => sobelBody_tidy)
theorem sobel_tidy {ch : Nat} : Tidy (fcv_sobel_edge_detection P w h ch d) := by tidy_fn fcv_sobel_edge_detection
theorem otsuPaint_tidy {g : List UInt8} {b : Bool} {n : Nat} : Tidy (do
    let m ← use [] (otsuPixels n b g)
    fcv_single_to_multichannel P w h (some m)) := by
  intro hp
  have := TK.start hp
  repeat' tidy_step
macro_rules | `(tactic| tidy_lib) => `(tactic| exact tidy_callThenFree rgba_to_grayscale_tidy fun _ => otsuPaint_tidy)
theorem otsu_tidy {dbl : Bool} : Tidy (fcv_otsu_threshold_rgba P w h dbl d) := by tidy_fn fcv_otsu_threshold_rgba
macro_rules | `(tactic| tidy_lib) => `(tactic| exact otsu_tidy)
theorem bw_smart_tidy {ex : ℚ → ℚ} {dbl : Bool} : Tidy (fcv_bw_smart P ex w h dbl d) := by tidy_fn fcv_bw_smart
theorem dilation_tidy {w h radius : Int} : Tidy (fcv_binary_dilation_disk P d w h radius) := by tidy_fn fcv_binary_dilation_disk
theorem erosion_internal_tidy {w h radius : Int} {b : Bool} : Tidy (binary_erosion_disk_internal P d w h radius b) := by
  tidy_fn binary_erosion_disk_internal
theorem erosion_tidy {w h radius : Int} : Tidy (fcv_binary_erosion_disk P d w h radius) := erosion_internal_tidy
macro_rules | `(tactic| tidy_lib) => `(tactic| exact tidy_callThenFree dilation_tidy fun _ => erosion_internal_tidy)
macro_rules | `(tactic| tidy_lib) => `(tactic| exact tidy_callThenFree erosion_tidy fun _ => dilation_tidy)
theorem closing_tidy {w h radius : Int} : Tidy (fcv_binary_closing_disk P d w h radius) := by tidy_fn fcv_binary_closing_disk
theorem opening_tidy {w h radius : Int} : Tidy (fcv_binary_opening_disk P d w h radius) := by tidy_fn fcv_binary_opening_disk
theorem watershed_tidy {ms : Option (List (Dbl × Dbl))} {n : Nat} {b : Bool} :
    Tidy (fcv_watershed_segmentation P w h d ms n b) := by tidy_fn fcv_watershed_segmentation
theorem histogram_tidy {ch : Nat} : TidyWith (fcv_generate_histogram P w h ch d) := by tidy_fn fcv_generate_histogram
theorem add_border_tidy {ch bw : Nat} {col : Option (List Char)} : TidyWith (fcv_add_border P w h ch col bw d) := by
  tidy_fn fcv_add_border
theorem resize_tidy {rx ry : Dbl} : TidyWith (fcv_resize P w h rx ry d) := by tidy_fn fcv_resize
theorem apply_matrix_tidy {w h ow oh : Int} {m : Option (Mat Dbl)} :
    TidyWith (fcv_apply_matrix_3x3 P w h d ow oh m) := by tidy_fn fcv_apply_matrix_3x3
theorem trimWith_tidy {good : UInt8 → UInt8 → Bool} {d : List UInt8} {w h : Int} {ch : Nat} :
    TidyWith (trimWith good P d w h ch) := by tidy_fn trimWith
macro_rules | `(tactic| tidy_lib) => `(tactic| exact trimWith_tidy)
theorem trim_tidy {w h : Int} {ch : Nat} : TidyWith (fcv_trim P w h ch d) := by tidy_fn fcv_trim
macro_rules | `(tactic| tidy_lib) => `(tactic| exact trim_tidy)
theorem trim_threshold_tidy {w h : Int} {ch : Nat} {t : Dbl} : TidyWith (fcv_trim_threshold P w h ch d t) := by
  tidy_fn fcv_trim_threshold

/-! ### Reading `Tidy` -/

/-- C10: a call in which some allocation fails returns NULL and leaves the heap as it was; nothing is released twice or used
after its release. -/
theorem allocation_failure {α : Type} {m : HM (Option (Buf α))} (t : Tidy m) {hp h' : Heap} {r : Option (Buf α)}
    (e : m hp = .ok (r, h')) {i : Nat} (h1 : hp.next ≤ i) (h2 : i < h'.next) (hf : hp.fails i = true) :
    r = none ∧ h'.live.Perm hp.live := by
  have q := (t hp).2.2 r h' e
  cases r with
  | none => exact ⟨rfl, q.1⟩
  | some b =>
    rw [q.2 i h1 h2] at hf
    cases hf

/-- C11: a call that succeeds leaves exactly one new block, its result. -/
theorem success_leaves_result {α : Type} {m : HM (Option (Buf α))} (t : Tidy m) {hp h' : Heap} {b : Buf α}
    (e : m hp = .ok (some b, h')) : h'.live.Perm (b.id :: hp.live) := ((t hp).2.2 _ h' e).1.1

/-! ### Concrete runs -/

/-- What a call returns (whether a block, and which) and which blocks are live afterwards. -/
def heapRun {α : Type} (m : HM (Option (Buf α))) (hp : Heap) : Option (Option Nat × List Nat × Nat) :=
  match m hp with
  | .ok (r, h') => some (r.map (·.id), h'.live, h'.next)
  | .error _ => none

/-- A heap with one live block in which exactly the allocation `k` fails. -/
def failAt (k : Nat) : Heap := ⟨1, [0], fun i => decide (i = k)⟩

/-- The second of two allocations fails: the first block is released. -/
example : heapRun (fcv_grayscale_stretch Plat.lp64 1 1 (some [9, 9, 9, 9])) (failAt 2) = some (none, [0], 3) := by decide +kernel

/-- No allocation fails: the temporary block is released, the result remains. -/
example : heapRun (fcv_grayscale_stretch Plat.lp64 1 1 (some [9, 9, 9, 9])) (failAt 0) = some (some 1, [1, 0], 3) := by
  decide +kernel

/-- A watershed makes four allocations; each of them may fail. -/
example : ∀ k ∈ [1, 2, 3, 4], heapRun (fcv_watershed_segmentation Plat.lp64 2 1 (some [1, 2]) (some [(.fin 0, .fin 0)]) 1 false)
    (failAt k) = some (none, [0], k + 1) := by decide +kernel

example : heapRun (fcv_watershed_segmentation Plat.lp64 2 1 (some [1, 2]) (some [(.fin 0, .fin 0)]) 1 false)
    (failAt 0) = some (some 1, [1, 0], 5) := by decide +kernel

/-- Corner detection makes eleven; here the ninth fails. -/
example : heapRun (fcv_foerstner_corner Plat.lp64 1 1 (some [5]) (.fin 1)) (failAt 9) = some (none, [0], 10) := by decide +kernel

end FlatCV.Props
