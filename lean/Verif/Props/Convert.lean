/-
From PNG, PGM and PPM files to JPEG files (C154).
-/
import Verif.Props.RefusedMain
import Verif.Props.PnmMain
import Verif.Props.PngWhole
import Verif.Props.JpegMain

namespace FlatCV.Props
open Model Spec

variable {P : Plat} {M : MathLib} {L : Lib} {W : World} {R : Sized → Prop}
  {pm : PngMem} {mem : JpegMem} {cm : Nat → Bool} {nm : PnmMem} {feof : Ctx → Bool} {others : Format → CM (Option Model.Loaded)}

/-- With all formats in their order, valid PNG files get to the PNG decoder as C127 supposes. -/
theorem decodes_all_png {inp : List Char} {file : List UInt8} {p : Png.Parts} {s : Png.Samples} (I : Png.IsPng file p s) (hd : DecodesAll W pm mem cm nm feof others inp file) :
    DecodesPng W pm inp file := by
  intro r hr
  exact hd r ((all_png I pm mem cm nm feof others (.ok none)).trans hr)

/-- With all formats in their order, valid PGM and PPM files get to their decoder as C150 supposes. -/
theorem decodes_all_pnm {inp : List Char} {file px : List UInt8} {n w h maxv : Nat} (hf : FeofHonest feof) (H : Pnm.IsPnm file n w h maxv px) (hw : w ≤ 16777216) (hh : h ≤ 16777216)
    (hd : DecodesAll W pm mem cm nm feof others inp file) : DecodesPnm W pm mem cm nm feof inp file := by
  intro r hr
  exact hd r ((all_pnm hf H hw hh pm mem cm nm others (.ok none)).trans hr)

/-- What C132 says about the JPEG file that is left behind: its size is that of a result `o` in `R`, and its samples are close to those of `o`. -/
def LeavesJpeg (R : Sized → Prop) (out : List Char) (r : Int × Option Saved) : Prop :=
  r.1 = 0 ∧ ∃ s, r.2 = some s ∧ s.path = out ∧ s.jpeg = true ∧ ∃ l d o, stbi_write_jpg false true s.width.toNat s.height.toNat s.bytes = .ok (1, some l) ∧ R o ∧
    Jpg.readJpeg l = some d ∧ d.frame = ⟨o.h, o.w, [⟨1, 2, 2, 0⟩, ⟨2, 1, 1, 1⟩, ⟨3, 1, 1, 1⟩]⟩ ∧
    ∀ c < 3, ∀ i < (d.frame.comps.getD c ⟨0, 1, 1, 0⟩).vs * d.frame.down, ∀ j < (d.frame.comps.getD c ⟨0, 1, 1, 0⟩).hs * d.frame.across,
      ∑ y ∈ Finset.range 8, ∑ x ∈ Finset.range 8,
        (d.recon c (8 * i + y) (8 * j + x) - Jpg.sample o.w o.h o.d c (8 * i + y) (8 * j + x)) ^ 2 ≤ if c = 0 then 2925 else 5365

/-- C154: from a valid PNG file to a JPEG file. -/
theorem main_png_to_jpeg (hl : 2147483647 ≤ L.lmax) (hex : ExpOk M.ex) {prog inp out : List Char} {args : List (List Char)} (ha : Args P args)
    (hn : (pieces (joined args)).length < 1073741824) (hne : pieces (joined args) ≠ [])
    {file : List UInt8} {p : Png.Parts} {s : Png.Samples} (I : Png.IsPng file p s) (hw : p.hd.w ≤ 16777216) (hh : p.hd.h ≤ 16777216)
    (har : p.hd.w * p.hd.h ≤ 200000000) (hi : ∀ l ∈ p.idat, l.length ≤ 1073741824) (ht : p.idat.flatten.length < 2147483648)
    (hr : ∀ raw, Png.zlibDecode p.idat.flatten = some raw → raw.length < 2147483648) (G : MemGood pm) (hd : DecodesAll W pm mem cm nm feof others inp file) (hji : ¬ JpegName inp)
    (h : Leads L.atof (pieces (joined args)) ⟨p.hd.w, p.hd.h, p.image s⟩ R) (hj : JpegOut out) (hwr : W.writable out = true)
    (hR : ∀ o, R o → o.w ≤ 65535 ∧ o.h ≤ 65535 ∧ o.w * o.h * 4 ≤ 2147483647) {hp : Heap} (hf : ∀ j, hp.fails j = false) :
    HOk (main P M L W (prog :: inp :: (args ++ [out]))) hp fun r h' => h'.live.Perm hp.live ∧ LeavesJpeg R out r :=
  main_jpeg_file hl hex ha hn hne (opens_png I hw hh har hi ht hr G (decodes_all_png I hd) hji) h hj hwr hR hf

/-- C154: from a valid PGM or PPM file with samples up to 255 to a JPEG file. -/
theorem main_pnm_to_jpeg (hl : 2147483647 ≤ L.lmax) (hex : ExpOk M.ex) {prog inp out : List Char} {args : List (List Char)} (ha : Args P args)
    (hn : (pieces (joined args)).length < 1073741824) (hne : pieces (joined args) ≠ []) (hm : PnmMem.Enough nm) (hfe : FeofHonest feof)
    {file px : List UInt8} {n w h : Nat} (H : Pnm.IsPnm file n w h 255 px) (hw : w ≤ 16777216) (hh : h ≤ 16777216) (hs : w * h < 268435456)
    (hd : DecodesAll W pm mem cm nm feof others inp file) (hji : ¬ JpegName inp)
    (hle : Leads L.atof (pieces (joined args)) ⟨w, h, pnmImage n (w * h) px⟩ R) (hj : JpegOut out) (hwr : W.writable out = true)
    (hR : ∀ o, R o → o.w ≤ 65535 ∧ o.h ≤ 65535 ∧ o.w * o.h * 4 ≤ 2147483647) {hp : Heap} (hf : ∀ j, hp.fails j = false) :
    HOk (main P M L W (prog :: inp :: (args ++ [out]))) hp fun r h' => h'.live.Perm hp.live ∧ LeavesJpeg R out r :=
  main_jpeg_file hl hex ha hn hne (opens_pnm hm hfe H hw hh hs (decodes_all_pnm hfe H hw hh hd) hji) hle hj hwr hR hf

/-! ### A case -/

theorem greyWorld_all : DecodesAll greyWorld allPng allJpeg allCoef allPnm atEnd (fun _ => .ok none) "in.pgm".toList twoGrey := by
  intro r hr
  exact greyWorld_decodes r ((all_pnm atEnd_honest twoGrey_isPnm (by decide) (by decide) allPng allJpeg allCoef allPnm _ (.ok none)).symm.trans hr)

/-- `flatcv in.pgm crop 1x1+1+0 out.jpg`: the file that is written is a JPEG file of one pixel. -/
example : ∃ M : MathLib, HOk (main Plat.lp64 M lib90 greyWorld
      ("flatcv".toList :: "in.pgm".toList :: (["crop", "1x1+1+0"].map String.toList ++ ["out.jpg".toList])))
    Heap.fresh fun r h' => h'.live.Perm Heap.fresh.live ∧ LeavesJpeg (· = ⟨1, 1, [200, 200, 200, 255]⟩) "out.jpg".toList r := by
  obtain ⟨ex, hex⟩ := expOk_exists
  have cr : Leads lib90.atof (pieces (joined (["crop", "1x1+1+0"].map String.toList))) ⟨2, 1, pnmImage 1 (2 * 1) [7, 200]⟩ (· = ⟨1, 1, [200, 200, 200, 255]⟩) := by
    rw [show pnmImage 1 (2 * 1) [7, 200] = [7, 7, 7, 255, 200, 200, 200, 255] by decide +kernel, show pieces (joined (["crop", "1x1+1+0"].map String.toList)) =
      ["crop".toList ++ ' ' :: (Spec.dec 1 ++ 'x' :: (Spec.dec 1 ++ (signed 1 ++ signed 0)))] by decide +kernel]
    refine .cons (by decide) (.crop (by decide) (by decide) (by decide) (by decide) (by decide) (by decide) (by decide) (by decide)) ?_
    rintro _ rfl
    exact .nil (by rw [Sized.mk.injEq]; decide +kernel)
  refine ⟨{ noMath with ex := ex }, main_pnm_to_jpeg (by decide) hex ⟨by decide, by decide⟩ (by decide +kernel) (by decide +kernel) (nm := allPnm) ⟨rfl, rfl, rfl⟩ atEnd_honest twoGrey_isPnm
    (by decide) (by decide) (by decide) greyWorld_all (by unfold JpegName; decide +kernel) cr (by unfold JpegOut; decide +kernel) rfl ?_ (fun _ => rfl)⟩
  rintro o rfl
  decide

end FlatCV.Props
