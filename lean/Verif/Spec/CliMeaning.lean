/-
What the pieces of a pipeline ask for, in terms of images.  Nothing here refers to the model of the program.
-/
import Verif.Spec.Cli
import Verif.Spec.CliRun
import Verif.Spec.CliPipeline
import Verif.Spec.Heap
import Verif.Spec.Gray
import Verif.Spec.Otsu
import Verif.Spec.BwSmart
import Verif.Spec.Blur
import Verif.Spec.Resize
import Verif.Spec.Sobel
import Verif.Spec.Trim
import Verif.Spec.Draw
import Verif.Spec.Color
import Verif.Spec.Histogram
import Verif.Spec.Morph
import Verif.Spec.Watershed
import Verif.Spec.Orient

namespace FlatCV.Spec

/-- `s` writes the colour, with or without `#`. -/
def Colour (s : List Char) (r g b : UInt8) : Prop := Spells s r g b ∨ ∃ t, s = '#' :: t ∧ Spells t r g b

/-- Factors that can be applied to the image: positive `double`s, both at least 1 or both below 2, and the result has at least one
pixel and fewer than `2^30`. -/
structure Factors (i : Sized) (rx ry : ℚ) : Prop where
  rep_x : Fmt.b64.Rep rx
  rep_y : Fmt.b64.Rep ry
  pos_x : 0 < rx
  pos_y : 0 < ry
  width : 0 < outDim i.w rx
  height : 0 < outDim i.h ry
  size : outDim i.w rx * outDim i.h ry < 1073741824
  kind : (1 ≤ rx ∧ 1 ≤ ry) ∨ (rx < 2 ∧ ry < 2)

/-- Enlarged images are interpolated, others averaged. -/
def Rescaled (i : Sized) (rx ry : ℚ) (o : Sized) : Prop :=
  o.w = outDim i.w rx ∧ o.h = outDim i.h ry ∧
    (1 ≤ rx → 1 ≤ ry → Interpolated rx ry i.w i.h i.d o.w o.h o.d) ∧
    (rx < 1 ∨ ry < 1 → AreaAveraged (1 / 2) rx ry i.w i.h i.d o.w o.h o.d)

/-- The binarisation of a local contrast: `f t` is applied to the contrast of each pixel against the blurred image, where `t` is
Otsu's threshold of the contrasts and the blur has the radius `√n / 10` for `n` pixels. -/
def SmartBw (f : Nat → UInt8 → UInt8) (i o : Sized) : Prop :=
  ∃ (r : ℚ) (B : List UInt8) (t : Nat), |(r : ℝ) - Real.sqrt (i.w * i.h : ℕ) / 10| ≤ 1 / 2 ^ 40 ∧
    Averaged (fun k => gauss r (codeOffset r k)) ⌊r⌋.toNat i.w i.h (grayRGBA (i.w * i.h) (lumaAt i.d)) B ∧ t < 256 ∧
    FirstMax (i.w * i.h) (fun k => contrast (lumaAt i.d k) (px1 4 B k 0))
      (Usable (i.w * i.h) fun k => contrast (lumaAt i.d k) (px1 4 B k 0)) t ∧
    o = ⟨i.w, i.h, grayRGBA (i.w * i.h) fun k => f t (contrast (lumaAt i.d k) (px1 4 B k 0))⟩

/-- The edge map of the luma as a gray image. -/
def Edges (i o : Sized) : Prop :=
  ∃ e : List UInt8, EdgeMap i.w i.h (edgeSq i.w i.h (gray (i.w * i.h) i.d)) e ∧
    EdgeScaled i.w i.h (edgeSq i.w i.h (gray (i.w * i.h) i.d)) e ∧
    o = ⟨i.w, i.h, grayRGBA (i.w * i.h) fun k => px1 1 e k 0⟩

/-- The image trimmed to the box given by `good`. -/
def Trimmed (good : UInt8 → UInt8 → Prop) (i o : Sized) : Prop :=
  ∃ l r t b, TrimBox good (px i.w 4 i.d) i.w i.h 4 l r t b ∧ o = ⟨r - l, b - t, crop i.w 4 i.d l t (r - l) (b - t)⟩

/-- The picture of the histogram. -/
def Charted (i o : Sized) : Prop :=
  ∃ m, IsMaxBar (histBar (i.w * i.h) 4 i.d) m ∧ 0 < m ∧
    o = ⟨256, 200, barChart fun c v => 200 * histBar (i.w * i.h) 4 i.d c v / m⟩

/-- The offsets `S` fill a disk of radius `R`, up to one or two pixels. -/
structure DiskLike (R : Int) (S : Int → Int → Prop) : Prop where
  row : ∀ k, -R ≤ k → k ≤ R → S k 0
  symm : ∀ x y, S x y → S (-x) y ∧ S x (-y)
  inner : 2 ≤ R → ∀ x y, x ^ 2 + y ^ 2 ≤ (R - 2) ^ 2 → S x y
  outer : 1 ≤ R → ∀ x y, S x y → x ^ 2 + y ^ 2 ≤ (R + 1) ^ 2

/-- The offsets `S` form a circle of radius `R`, up to one or two pixels. -/
structure CircleLike (R : Int) (S : Int → Int → Prop) : Prop where
  poles : S 0 R ∧ S R 0
  symm : ∀ x y, S x y → S (-x) y ∧ S x (-y) ∧ S y x
  inner : 2 ≤ R → ∀ x y, S x y → (R - 2) ^ 2 ≤ x ^ 2 + y ^ 2
  outer : 1 ≤ R → ∀ x y, S x y → x ^ 2 + y ^ 2 ≤ (R + 1) ^ 2

/-- The shape is painted around `(cx, cy)` in the colour `(r, g, b)`. -/
def Stamped (like : (Int → Int → Prop) → Prop) (r g b : UInt8) (cx cy : Int) (i o : Sized) : Prop :=
  ∃ S, like S ∧ ∃ lum, IsLuma r g b lum ∧
    o = ⟨i.w, i.h, painted i.w i.h 4 r g b lum (fun x y => S (x - cx) (y - cy)) i.d⟩

/-- The framed image. -/
def Framed (r g b : UInt8) (n : Nat) (i o : Sized) : Prop :=
  ∃ lum, IsLuma r g b lum ∧ o = ⟨i.w + 2 * n, i.h + 2 * n, bordered i.w i.h 4 r g b lum n i.d⟩

/-- The image that is white on the pixels `f S`, where `S` are the pixels of luma 255, and black elsewhere. -/
def Morphed (f : (Nat → Nat → Prop) → Nat → Nat → Prop) (i o : Sized) : Prop :=
  o = ⟨i.w, i.h, grayRGBA (i.w * i.h) fun k => px1 1 (binImg i.w i.h (f (White i.w i.h (gray (i.w * i.h) i.d)))) k 0⟩

/-- The regions grown from the markers `ms` on the luma. -/
def Segmented (ms : List (Dbl × Dbl)) (i o : Sized) : Prop :=
  ∃ L, Regions i.w i.h ms L ∧ FloodsInOrder i.w i.h (gray (i.w * i.h) i.d) ms L ∧ BoundaryOnly i.w i.h L ∧
    o = ⟨i.w, i.h, paintRegions i.w i.h L⟩

/-- A marker as written in the pipeline. -/
def markerText (m : List Char × List Char) : List Char := m.1 ++ 'x' :: m.2

/-- `Asks atof piece i R`: the piece of the pipeline, applied to the image `i`, asks for a result in `R`.  `atof` is how the C
library reads numbers. -/
inductive Asks (atof : List Char → Dbl) : List Char → Sized → (Sized → Prop) → Prop
  /-- `grayscale` -/
  | grayscale {i} : Asks atof "grayscale".toList i (· = ⟨i.w, i.h, grayRGBA (i.w * i.h) (lumaAt i.d)⟩)
  /-- `threshold` -/
  | threshold {i} : Asks atof "threshold".toList i fun o => ∃ t, t < 256 ∧
      FirstMax (i.w * i.h) (lumaAt i.d) (Usable (i.w * i.h) (lumaAt i.d)) t ∧
      o = ⟨i.w, i.h, grayRGBA (i.w * i.h) fun k => Spec.threshold (UInt8.ofNat t) (lumaAt i.d k)⟩
  /-- `bw_smart` -/
  | bwSmart {i} : i.w * i.h ≤ 100000000 → Asks atof "bw_smart".toList i (SmartBw (fun t => Spec.threshold (UInt8.ofNat t)) i)
  /-- `bw_smooth` -/
  | bwSmooth {i} : i.w * i.h ≤ 100000000 →
      Asks atof "bw_smooth".toList i (SmartBw (fun t => ramp ((t + 240) % 256) ((t + 16) % 256)) i)
  /-- `blur 5` -/
  | blur {i a} {n : Nat} : Word a → atof a = .fin n → 0 < n → n ≤ 1000 →
      Asks atof ("blur".toList ++ ' ' :: a) i fun o => o.w = i.w ∧ o.h = i.h ∧ Averaged (gauss n) n i.w i.h i.d o.d
  /-- `resize 2` -/
  | resizeBoth {i a r} : Word a → '%' ∉ a → 'x' ∉ a → atof a = .fin r → Factors i r r →
      Asks atof ("resize".toList ++ ' ' :: a) i (Rescaled i r r)
  /-- `resize 0.5 0.25` -/
  | resize {i a b rx ry} : Word a → Word b → '%' ∉ a ++ b → 'x' ∉ a ++ b → atof a = .fin rx → atof b = .fin ry → Factors i rx ry →
      Asks atof ("resize".toList ++ ' ' :: (a ++ ' ' :: b)) i (Rescaled i rx ry)
  /-- `resize 50%` -/
  | resizePct {i a} {q : ℚ} : Word a → '%' ∈ a → 'x' ∉ a → a.length ≤ 63 → atof a = .fin q → Factors i (Fmt.b64.rnd (q / 100)) (Fmt.b64.rnd (q / 100)) →
      Asks atof ("resize".toList ++ ' ' :: a) i (Rescaled i (Fmt.b64.rnd (q / 100)) (Fmt.b64.rnd (q / 100)))
  /-- `resize 50%x80%` -/
  | resizePcts {i a b} {p q : ℚ} : Word a → Word b → '%' ∈ a → 'x' ∉ a → (a ++ 'x' :: b).length ≤ 63 → atof a = .fin p → atof b = .fin q →
      Factors i (Fmt.b64.rnd (p / 100)) (Fmt.b64.rnd (q / 100)) →
      Asks atof ("resize".toList ++ ' ' :: (a ++ 'x' :: b)) i (Rescaled i (Fmt.b64.rnd (p / 100)) (Fmt.b64.rnd (q / 100)))
  /-- `resize 640x480` -/
  | resizeTo {i a b} {p q : ℚ} : Word a → Word b → '%' ∉ a → 'x' ∉ a → (a ++ 'x' :: b).length ≤ 63 → atof a = .fin p → atof b = .fin q →
      Factors i (Fmt.b64.rnd (p / i.w)) (Fmt.b64.rnd (q / i.h)) →
      Asks atof ("resize".toList ++ ' ' :: (a ++ 'x' :: b)) i (Rescaled i (Fmt.b64.rnd (p / i.w)) (Fmt.b64.rnd (q / i.h)))
  /-- `sobel` -/
  | sobel {i} : Asks atof "sobel".toList i (Edges i)
  /-- `circle FF0000 5 20x30` -/
  | circle {i color ra x y r g b} {ρ cx cy : ℚ} : Colour color r g b → Word ra → Word x → 'x' ∉ x → Word y → atof ra = .fin ρ →
      atof x = .fin cx → atof y = .fin cy → 0 ≤ ρ → ρ ≤ 500000000 → |cx| ≤ 1000000000 → |cy| ≤ 1000000000 →
      Asks atof ("circle".toList ++ ' ' :: (color ++ ' ' :: (ra ++ ' ' :: (x ++ 'x' :: y)))) i
        (Stamped (CircleLike (trunc ρ)) r g b (trunc cx) (trunc cy) i)
  /-- `disk FF0000 5 20x30` -/
  | disk {i color ra x y r g b} {ρ cx cy : ℚ} : Colour color r g b → Word ra → Word x → 'x' ∉ x → Word y → atof ra = .fin ρ →
      atof x = .fin cx → atof y = .fin cy → 0 ≤ ρ → ρ ≤ 500000000 → |cx| ≤ 1000000000 → |cy| ≤ 1000000000 →
      Asks atof ("disk".toList ++ ' ' :: (color ++ ' ' :: (ra ++ ' ' :: (x ++ 'x' :: y)))) i
        (Stamped (DiskLike (trunc ρ)) r g b (trunc cx) (trunc cy) i)
  /-- `watershed 10x20 30x40` -/
  | watershed {i} {ts : List (List Char × List Char)} : ts ≠ [] → (∀ m ∈ ts, Word m.1 ∧ 'x' ∉ m.1 ∧ Word m.2) →
      ([' '].intercalate (ts.map markerText)).length ≤ 63 → MarkersInside i.w i.h (ts.map fun m => (atof m.1, atof m.2)) →
      Asks atof ("watershed".toList ++ ' ' :: [' '].intercalate (ts.map markerText)) i
        (Segmented (ts.map fun m => (atof m.1, atof m.2)) i)
  /-- `crop 640x480+10-20` -/
  | crop {i} {w h : Nat} {x y : Int} : 0 < w → w ≤ 4294967295 → 0 < h → h ≤ 4294967295 → IsI32 x → IsI32 y → x < i.w → y < i.h →
      Asks atof ("crop".toList ++ ' ' :: (dec w ++ 'x' :: (dec h ++ (signed x ++ signed y)))) i
        (· = ⟨(clampSpan x w i.w).2, (clampSpan y h i.h).2,
          Spec.crop i.w 4 i.d (clampSpan x w i.w).1 (clampSpan y h i.h).1 (clampSpan x w i.w).2 (clampSpan y h i.h).2⟩)
  /-- `flip_x` -/
  | flipX {i} : Asks atof "flip_x".toList i (· = ⟨i.w, i.h, Spec.flipX i.w i.h i.d⟩)
  /-- `flip_y` -/
  | flipY {i} : Asks atof "flip_y".toList i (· = ⟨i.w, i.h, Spec.flipY i.w i.h i.d⟩)
  /-- `rotate -90` -/
  | rotate {i a} {k : Int} : Word a → IsI32 (90 * k) → atof a = .fin ((90 * k : Int) : ℚ) →
      Asks atof ("rotate".toList ++ ' ' :: a) i (· = turned i (k % 4).toNat)
  /-- `trim` -/
  | trim {i} : Asks atof "trim".toList i (Trimmed Same i)
  /-- `trim 3`, `trim 3%` -/
  | trimBy {i a} {n : Nat} : Word a → 'x' ∉ a → a.length ≤ 63 → atof a = .fin n → n ≤ 100 →
      Asks atof ("trim".toList ++ ' ' :: a) i (Trimmed (Within (n * 255 / 100)) i)
  /-- `histogram` -/
  | histogram {i} : i.w * i.h * 200 < 4294967296 → Asks atof "histogram".toList i (Charted i)
  /-- `border FF0000 10` -/
  | border {i color a r g b} {n : Nat} : Colour color r g b → Word a → atof a = .fin n → 0 < n →
      (i.w + 2 * n) * (i.h + 2 * n) < 1073741824 → Asks atof ("border".toList ++ ' ' :: (color ++ ' ' :: a)) i (Framed r g b n i)
  /-- `erode 2` -/
  | erode {i a} {n : Nat} : Word a → atof a = .fin n → n ≤ 32767 → Asks atof ("erode".toList ++ ' ' :: a) i (Morphed (Erode i.w i.h n) i)
  /-- `dilate 2` -/
  | dilate {i a} {n : Nat} : Word a → atof a = .fin n → n ≤ 32767 → Asks atof ("dilate".toList ++ ' ' :: a) i (Morphed (Dilate i.w i.h n) i)
  /-- `close 2` -/
  | close {i a} {n : Nat} : Word a → atof a = .fin n → n ≤ 32767 →
      Asks atof ("close".toList ++ ' ' :: a) i (Morphed (fun S => ErodeIn i.w i.h n (Dilate i.w i.h n S)) i)
  /-- `open 2` -/
  | open {i a} {n : Nat} : Word a → atof a = .fin n → n ≤ 32767 →
      Asks atof ("open".toList ++ ' ' :: a) i (Morphed (fun S => Dilate i.w i.h n (Erode i.w i.h n S)) i)

/-- `Leads atof pieces i R`: whatever images the pieces may give, each applied to the result of the one before, the last one is in
`R`; every image on the way has fewer than `2^28` pixels and the next piece asks for something. -/
inductive Leads (atof : List Char → Dbl) : List (List Char) → Sized → (Sized → Prop) → Prop
  | nil {i} {R : Sized → Prop} : R i → Leads atof [] i R
  | cons {pc ps i} {Q R : Sized → Prop} : i.w * i.h < 268435456 → Asks atof pc i Q → (∀ o, Q o → Leads atof ps o R) →
      Leads atof (pc :: ps) i R

/-- Unless an allocation fails, the operation returns `o`, in a block that is the only new one. -/
def Makes (m : HM (Option (Buf UInt8) × Int × Int)) (o : Sized) : Prop :=
  ∀ hp : Heap, (∀ k, hp.fails k = false) → HOk m hp fun r h' =>
    ∃ k, r = (some ⟨k, o.d.map some⟩, (o.w : Int), (o.h : Int)) ∧ HeapEffect hp h' [k]

end FlatCV.Spec
