/-
From a PNG file to a PNG file (C127).
-/
import Verif.Props.PngLoad
import Verif.Props.PngMain

namespace FlatCV.Props
open Model Spec Png

variable {P : Plat} {M : MathLib} {L : Lib} {W : World} {R : Sized → Prop}

/-- The decoder that `main` calls for the file `path` is the PNG decoder: whenever that returns, `main` gets its result. -/
def DecodesPng (W : World) (m : PngMem) (path : List Char) (file : List UInt8) : Prop :=
  ∀ r, stbi_load m (.ok none) file = .ok r → W.load path = r.map fun l => (l.x, l.y, l.data.map fun b => b.getD 0)

theorem image_length (p : Parts) (s : Samples) : (p.image s).length = p.hd.w * p.hd.h * 4 := by
  rw [Parts.image, rgbaBytes, List.length_flatMap]
  simp

/-- The decoder makes of a valid file the image that `main` works on. -/
theorem opens_png {m : PngMem} {inp : List Char} {file : List UInt8} {p : Parts} {s : Samples} (I : IsPng file p s) (hw : p.hd.w ≤ 16777216) (hh : p.hd.h ≤ 16777216)
    (ha : p.hd.w * p.hd.h ≤ 200000000) (hi : ∀ l ∈ p.idat, l.length ≤ 1073741824) (ht : p.idat.flatten.length < 2147483648)
    (hr : ∀ raw, zlibDecode p.idat.flatten = some raw → raw.length < 2147483648) (G : MemGood m) (hd : DecodesPng W m inp file) (hj : ¬ JpegName inp) :
    Opens W inp ⟨p.hd.w, p.hd.h, p.image s⟩ := by
  have h := hd _ (load_png_correct I hw hh ha hi ht hr G)
  refine ⟨p.hd.w, p.hd.h, p.image s, ?_, I.valid.hd.w_pos, I.valid.hd.h_pos, image_length p s, by omega, Or.inl ⟨hj, rfl⟩⟩
  rw [h]
  simp

/-- C127: the program is called with a valid PNG file (any colour type, depth, palette, transparency or interlacing), with arguments whose
text leads from its image to results in `R`, and with a writable output file whose name does not end in `.jpg` or `.jpeg`.  Unless an
allocation fails, the file that is written is a valid PNG file whose image is a result in `R`. -/
theorem main_png_to_png (hl : 2147483647 ≤ L.lmax) (hex : ExpOk M.ex) {prog inp out : List Char} {args : List (List Char)} (ha : Args P args)
    (hn : (pieces (joined args)).length < 1073741824) (hne : pieces (joined args) ≠ [])
    {m : PngMem} {file : List UInt8} {p : Parts} {s : Samples} (I : IsPng file p s) (hw : p.hd.w ≤ 16777216) (hh : p.hd.h ≤ 16777216)
    (har : p.hd.w * p.hd.h ≤ 200000000) (hi : ∀ l ∈ p.idat, l.length ≤ 1073741824) (ht : p.idat.flatten.length < 2147483648)
    (hr : ∀ raw, zlibDecode p.idat.flatten = some raw → raw.length < 2147483648) (G : MemGood m) (hd : DecodesPng W m inp file) (hji : ¬ JpegName inp)
    (h : Leads L.atof (pieces (joined args)) ⟨p.hd.w, p.hd.h, p.image s⟩ R) (hj : ¬ JpegOut out) (hwr : W.writable out = true)
    (hR : ∀ o, R o → o.w < 4194304 ∧ o.h * (o.w * 4 + 1) ≤ 600000000) {hp : Heap} (hf : ∀ j, hp.fails j = false) :
    HOk (main P M L W (prog :: inp :: (args ++ [out]))) hp fun r h' => h'.live.Perm hp.live ∧ r.1 = 0 ∧ ∃ v, r.2 = some v ∧ v.path = out ∧
      v.jpeg = false ∧ ∀ g : Heap, Plenty g → ∃ l k q t, stbi_write_png true v.width.toNat v.height.toNat 4 v.bytes (v.width * 4).toNat g =
        .ok ((1, some l), ⟨k, g.live, g.fails⟩) ∧ IsPng l q t ∧ R ⟨q.hd.w, q.hd.h, q.image t⟩ := by
  refine (main_leads_picture hl hex ha hn hne (opens_png I hw hh har hi ht hr G hd hji) h (Or.inr fun o ho => by have := (hR o ho).1; omega) hf).mono ?_
  rintro r h' ⟨hperm, o, hro, p, rfl⟩
  rw [hwr, if_pos rfl]
  refine ⟨hperm, rfl, _, rfl, rfl, by simpa using hj, fun g hg => ?_⟩
  obtain ⟨r1, r2⟩ := hR o hro
  have hlen : o.d.length = o.w * o.h * 4 := by rw [p.img.len]
  obtain ⟨l, h1, h2, h3⟩ := png_written (x := o.w) (y := o.h) (n := 4) (stride := o.w * 4) (px := o.d)
    ⟨p.img.w_pos, p.img.h_pos, by omega, le_rfl, by omega, r2⟩ (Or.inr rfl) hlen hg
  have hh2 : o.h ≤ o.h * (o.w * 4 + 1) := Nat.le_mul_of_pos_right _ (Nat.succ_pos _)
  obtain ⟨q, t, Q, e1, e2, -, e4, -⟩ := readPng_isPng h2 (by omega) (by show o.w < _; omega) (by show o.h < _; omega)
  refine ⟨l, g.next + 5, q, t, ?_, Q, ?_⟩
  · have e : ((o.w : Int) * 4).toNat = o.w * 4 := by omega
    simp only [Int.toNat_natCast, e]
    exact h1
  · have e1 : q.hd.w = o.w := e1
    have e2 : q.hd.h = o.h := e2
    have e : rgbaBytes (imagePixel ⟨o.w, o.h, 4, o.d⟩) (o.w * o.h) = o.d := rgba_same hlen
    rw [e1, e2, e4]
    show R ⟨o.w, o.h, rgbaBytes (imagePixel ⟨o.w, o.h, 4, o.d⟩) (o.w * o.h)⟩
    rw [e]
    exact hro

/-- A file with the 3 × 2 image from above. -/
def paletteWorld : World :=
  ⟨fun _ => some (3, 2, smallPalette.image smallSamples), fun _ => some smallPalette.bytes, fun _ => true⟩

theorem smallPalette_raw (raw : List UInt8) (hr : zlibDecode smallPalette.idat.flatten = some raw) : raw.length < 2147483648 := by
  rw [smallPalette_data] at hr
  rw [← Option.some.inj hr]
  decide

theorem paletteWorld_decodes : DecodesPng paletteWorld plentyPng "in.png".toList smallPalette.bytes := by
  intro r hr
  rw [load_png_correct smallPalette_isPng (by decide) (by decide) (by decide) (by decide) (by decide) smallPalette_raw plentyPng_good] at hr
  rw [← Except.ok.inj hr]
  simp only [Option.map_some, List.map_map, Function.comp_def, Option.getD_some, List.map_id']
  rfl

theorem smallPalette_image : smallPalette.image smallSamples =
    [10, 20, 30, 255, 40, 50, 60, 128, 70, 80, 90, 255, 10, 20, 30, 255, 70, 80, 90, 255, 40, 50, 60, 128] := by
  decide +kernel

theorem crop_leads : Leads lib90.atof (pieces (joined (["crop", "1x1+1+0"].map String.toList))) ⟨3, 2, smallPalette.image smallSamples⟩
    (· = ⟨1, 1, [40, 50, 60, 128]⟩) := by
  rw [smallPalette_image, show pieces (joined (["crop", "1x1+1+0"].map String.toList)) =
    ["crop".toList ++ ' ' :: (Spec.dec 1 ++ 'x' :: (Spec.dec 1 ++ (signed 1 ++ signed 0)))] by decide +kernel]
  refine .cons (by decide) (.crop (by decide) (by decide) (by decide) (by decide) (by decide) (by decide) (by decide) (by decide)) ?_
  rintro _ rfl
  exact .nil (by rw [Sized.mk.injEq]; decide +kernel)

/-- `flatcv in.png crop 1x1+1+0 out.png`, where the input has a palette and is interlaced: the file that is written is a valid PNG file
with the one pixel 40, 50, 60, 128. -/
example : ∃ M : MathLib, HOk (main Plat.lp64 M lib90 paletteWorld
      ("flatcv".toList :: "in.png".toList :: (["crop", "1x1+1+0"].map String.toList ++ ["out.png".toList])))
    Heap.fresh fun r _ => ∃ v, r.2 = some v ∧ ∃ l k q t, stbi_write_png true v.width.toNat v.height.toNat 4 v.bytes (v.width * 4).toNat Heap.fresh =
      .ok ((1, some l), k) ∧ IsPng l q t ∧ q.hd.w = 1 ∧ q.hd.h = 1 ∧ q.image t = [40, 50, 60, 128] := by
  obtain ⟨ex, hex⟩ := expOk_exists
  refine ⟨{ noMath with ex := ex }, (main_png_to_png (by decide) hex ⟨by decide, by decide⟩ (by decide +kernel) (by decide +kernel) smallPalette_isPng (by decide)
    (by decide) (by decide) (by decide) (by decide) smallPalette_raw plentyPng_good paletteWorld_decodes (by unfold JpegName; decide +kernel) crop_leads
    (by unfold JpegOut; decide +kernel) rfl ?_ (fun _ => rfl)).mono ?_⟩
  · rintro o rfl
    decide
  · rintro r h' ⟨-, -, v, h1, -, -, h2⟩
    obtain ⟨l, k, q, t, h3, h4, h5⟩ := h2 Heap.fresh fun _ _ => rfl
    simp only [Sized.mk.injEq] at h5
    exact ⟨v, h1, l, _, q, t, h3, h4, h5.1, h5.2.1, h5.2.2⟩

end FlatCV.Props
