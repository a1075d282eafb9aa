/-
The program is called with a PGM or PPM file (C150).
-/
import Verif.Props.Pnm
import Verif.Props.PngMain
import Verif.Lemmas.PngMeaning

namespace FlatCV.Props
open Model Spec Png Pnm

variable {P : Plat} {M : MathLib} {L : Lib} {W : World} {R : Sized → Prop}

/-- The decoder that `main` calls for the file `path` is the one of stb_image: whenever that returns, `main` gets its result. -/
def DecodesPnm (W : World) (pm : PngMem) (mem : JpegMem) (cm : Nat → Bool) (nm : PnmMem) (feof : Ctx → Bool) (path : List Char) (file : List UInt8) : Prop :=
  ∀ r, stbi_load_pnm pm mem cm nm feof (.ok none) file = .ok r → W.load path = r.map fun l => (l.x, l.y, l.data.map fun b => b.getD 0)

/-- The image of a file with samples up to 255: the three channels of each pixel, and opaque. -/
def pnmImage (n count : Nat) (px : List UInt8) : List UInt8 :=
  rgbaBytes (fun p => (channel n 255 px p 0, channel n 255 px p 1, channel n 255 px p 2, 255)) count

theorem shown_image {out : Cells UInt8} {n count : Nat} {px : List UInt8} (hl : out.length = count * 4)
    (ho : ∀ p, p < count → (∀ c, c < 3 → ∃ b : UInt8, out[p * 4 + c]? = some (some b) ∧ b.toNat = channel n 255 px p c) ∧ out[p * 4 + 3]? = some (some 255)) :
    (out.map fun b => b.getD 0) = pnmImage n count px := by
  obtain ⟨l1, l2⟩ := rgba_bytes (fun p => (channel n 255 px p 0, channel n 255 px p 1, channel n 255 px p 2, 255)) count
  refine List.ext_getElem? fun i => ?_
  by_cases hi : i < count * 4
  · have e := l2 (i / 4) (by omega) (i % 4) (by omega)
    rw [show i / 4 * 4 + i % 4 = i by omega] at e
    rw [pnmImage, e, List.getElem?_map]
    obtain ⟨h1, h2⟩ := ho (i / 4) (by omega)
    by_cases h3 : i % 4 = 3
    · rw [show i / 4 * 4 + 3 = i by omega] at h2
      rw [h2, h3]
      rfl
    · obtain ⟨b, b1, b2⟩ := h1 (i % 4) (by omega)
      rw [show i / 4 * 4 + i % 4 = i by omega] at b1
      rw [b1]
      have : b = UInt8.ofNat (channel n 255 px (i / 4) (i % 4)) := by rw [← b2, UInt8.ofNat_toNat]
      show some b = _
      rw [this]
      have h4 : i % 4 = 0 ∨ i % 4 = 1 ∨ i % 4 = 2 := by omega
      rcases h4 with h | h | h <;> rw [h] <;> rfl
  · rw [List.getElem?_eq_none (by rw [List.length_map]; omega), List.getElem?_eq_none (by rw [pnmImage, l1]; omega)]

/-- The decoder makes of a valid file the image that `main` works on. -/
theorem opens_pnm {pm : PngMem} {mem : JpegMem} {cm : Nat → Bool} {nm : PnmMem} (hm : PnmMem.Enough nm) {feof : Ctx → Bool} (hf : FeofHonest feof)
    {inp : List Char} {file px : List UInt8} {n w h : Nat} (H : IsPnm file n w h 255 px) (hw : w ≤ 16777216) (hh : h ≤ 16777216) (hs : w * h < 268435456)
    (hd : DecodesPnm W pm mem cm nm feof inp file) (hj : ¬ JpegName inp) : Opens W inp ⟨w, h, pnmImage n (w * h) px⟩ := by
  have hlen : px.length ≤ 2147483647 := by
    have hz := H.size
    have hn : n = 1 ∨ n = 3 := by
      obtain ⟨_, _, _, _, _, _, _, _, _, _, _, _, _, _, _, _, _, _, _, h⟩ := H.parts
      omega
    rw [show sampleSize 255 = 1 from rfl, Nat.mul_one, Nat.mul_assoc] at hz
    rcases hn with rfl | rfl <;> omega
  obtain ⟨out, h1, h2, h3⟩ := load_pnm_exact hf H hw hh (by omega) hlen pm mem cm hm (.ok none)
  have hld := hd _ h1
  refine ⟨w, h, pnmImage n (w * h) px, ?_, H.width, H.height, ?_, hs, Or.inl ⟨hj, rfl⟩⟩
  · rw [hld, Option.map_some, shown_image h2 h3]
  · exact (rgba_bytes _ _).1

/-- C150: the program is called with a valid PGM or PPM file with samples up to 255, with arguments whose text leads from its image to
results in `R`, and with a writable output file whose name does not end in `.jpg` or `.jpeg`.  Unless an allocation fails, the file that
is written is a PNG file that decodes to a result in `R`. -/
theorem main_pnm_to_png (hl : 2147483647 ≤ L.lmax) (hex : ExpOk M.ex) {prog inp out : List Char} {args : List (List Char)} (ha : Args P args)
    (hn : (pieces (joined args)).length < 1073741824) (hne : pieces (joined args) ≠ [])
    {pm : PngMem} {mem : JpegMem} {cm : Nat → Bool} {nm : PnmMem} (hm : PnmMem.Enough nm) {feof : Ctx → Bool} (hfe : FeofHonest feof)
    {file px : List UInt8} {n w h : Nat} (H : IsPnm file n w h 255 px) (hw : w ≤ 16777216) (hh : h ≤ 16777216) (hs : w * h < 268435456)
    (hd : DecodesPnm W pm mem cm nm feof inp file) (hji : ¬ JpegName inp)
    (hle : Leads L.atof (pieces (joined args)) ⟨w, h, pnmImage n (w * h) px⟩ R) (hj : ¬ JpegOut out) (hwr : W.writable out = true)
    (hR : ∀ o, R o → o.w < 4194304 ∧ o.h * (o.w * 4 + 1) ≤ 600000000) {hp : Heap} (hf : ∀ j, hp.fails j = false) :
    HOk (main P M L W (prog :: inp :: (args ++ [out]))) hp fun r h' => h'.live.Perm hp.live ∧ r.1 = 0 ∧ ∃ s, r.2 = some s ∧ s.path = out ∧
      s.jpeg = false ∧ ∀ g : Heap, Plenty g → ∃ l k o, stbi_write_png true s.width.toNat s.height.toNat 4 s.bytes (s.width * 4).toNat g =
        .ok ((1, some l), ⟨k, g.live, g.fails⟩) ∧ R o ∧ readPng l = some ⟨o.w, o.h, 4, o.d⟩ :=
  main_png_file hl hex ha hn hne (opens_pnm hm hfe H hw hh hs hd hji) hle hj hwr hR hf

/-! ### A case -/

/-- A world in which the file `in.pgm` is the one of two pixels from above. -/
def greyWorld : World :=
  ⟨fun _ => some (2, 1, [7, 7, 7, 255, 200, 200, 200, 255]), fun _ => some twoGrey, fun _ => true⟩

theorem greyWorld_decodes : DecodesPnm greyWorld allPng allJpeg allCoef allPnm atEnd "in.pgm".toList twoGrey := by
  intro r hr
  obtain ⟨out, h1, h2, h3⟩ := load_pnm_exact atEnd_honest twoGrey_isPnm (by decide) (by decide) (by decide) (by decide) allPng allJpeg allCoef (nm := allPnm) ⟨rfl, rfl, rfl⟩ (.ok none)
  rw [h1] at hr
  rw [← Except.ok.inj hr, Option.map_some, shown_image h2 h3]
  have : pnmImage 1 (2 * 1) [7, 200] = [7, 7, 7, 255, 200, 200, 200, 255] := by decide +kernel
  rw [this]
  rfl

/-- `flatcv in.pgm crop 1x1+1+0 out.png`: the file that is written is a PNG file with the one pixel 200, 200, 200, 255. -/
example : ∃ M : MathLib, HOk (main Plat.lp64 M lib90 greyWorld
      ("flatcv".toList :: "in.pgm".toList :: (["crop", "1x1+1+0"].map String.toList ++ ["out.png".toList])))
    Heap.fresh fun r _ => ∃ v, r.2 = some v ∧ ∃ l k, stbi_write_png true v.width.toNat v.height.toNat 4 v.bytes (v.width * 4).toNat Heap.fresh =
      .ok ((1, some l), k) ∧ readPng l = some ⟨1, 1, 4, [200, 200, 200, 255]⟩ := by
  obtain ⟨ex, hex⟩ := expOk_exists
  have cr : Leads lib90.atof (pieces (joined (["crop", "1x1+1+0"].map String.toList))) ⟨2, 1, pnmImage 1 (2 * 1) [7, 200]⟩ (· = ⟨1, 1, [200, 200, 200, 255]⟩) := by
    rw [show pnmImage 1 (2 * 1) [7, 200] = [7, 7, 7, 255, 200, 200, 200, 255] by decide +kernel, show pieces (joined (["crop", "1x1+1+0"].map String.toList)) =
      ["crop".toList ++ ' ' :: (Spec.dec 1 ++ 'x' :: (Spec.dec 1 ++ (signed 1 ++ signed 0)))] by decide +kernel]
    refine .cons (by decide) (.crop (by decide) (by decide) (by decide) (by decide) (by decide) (by decide) (by decide) (by decide)) ?_
    rintro _ rfl
    exact .nil (by rw [Sized.mk.injEq]; decide +kernel)
  refine ⟨{ noMath with ex := ex }, (main_pnm_to_png (by decide) hex ⟨by decide, by decide⟩ (by decide +kernel) (by decide +kernel) (nm := allPnm) ⟨rfl, rfl, rfl⟩ atEnd_honest twoGrey_isPnm
    (by decide) (by decide) (by decide) greyWorld_decodes (by unfold JpegName; decide +kernel) cr (by unfold JpegOut; decide +kernel) rfl ?_ (fun _ => rfl)).mono ?_⟩
  · rintro o rfl
    decide
  · rintro r h' ⟨-, -, v, h1, -, -, h2⟩
    obtain ⟨l, k, o, h3, rfl, h5⟩ := h2 Heap.fresh fun _ _ => rfl
    exact ⟨v, h1, l, _, h3, h5⟩

end FlatCV.Props
