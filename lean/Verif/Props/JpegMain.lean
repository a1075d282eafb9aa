/-
The JPEG file that the program leaves behind (C132).
-/
import Verif.Props.CliWhole
import Verif.Props.Jpeg

namespace FlatCV.Props
open Model Spec Jpg

variable {P : Plat} {M : MathLib} {L : Lib} {W : World} {i : Sized} {R : Sized → Prop}

/-- C132: the program is called with a file in which it sees the image `i`, with arguments whose text leads from `i` to results in `R`, and
with a writable output file whose name ends in `.jpg` or `.jpeg`.  Unless an allocation fails it returns 0, and calling the JPEG writer for
the image it saved leaves a file in which a JPEG reader finds an image of the size of a result in `R`, the samples of which are close to
those of the result (as in C130), provided the result has sides of at most 65535 pixels and at most 2^29 - 1 pixels. -/
theorem main_jpeg_file (hl : 2147483647 ≤ L.lmax) (hex : ExpOk M.ex) {prog inp out : List Char} {args : List (List Char)} (ha : Args P args)
    (hn : (pieces (joined args)).length < 1073741824) (hne : pieces (joined args) ≠ [])
    (ho : Opens W inp i) (h : Leads L.atof (pieces (joined args)) i R) (hj : JpegOut out) (hw : W.writable out = true)
    (hR : ∀ o, R o → o.w ≤ 65535 ∧ o.h ≤ 65535 ∧ o.w * o.h * 4 ≤ 2147483647) {hp : Heap} (hf : ∀ j, hp.fails j = false) :
    HOk (main P M L W (prog :: inp :: (args ++ [out]))) hp fun r h' => h'.live.Perm hp.live ∧ r.1 = 0 ∧ ∃ s, r.2 = some s ∧ s.path = out ∧
      s.jpeg = true ∧ ∃ l d o, stbi_write_jpg false true s.width.toNat s.height.toNat s.bytes = .ok (1, some l) ∧ R o ∧
        readJpeg l = some d ∧ d.frame = ⟨o.h, o.w, [⟨1, 2, 2, 0⟩, ⟨2, 1, 1, 1⟩, ⟨3, 1, 1, 1⟩]⟩ ∧
        ∀ c < 3, ∀ i < (d.frame.comps.getD c ⟨0, 1, 1, 0⟩).vs * d.frame.down, ∀ j < (d.frame.comps.getD c ⟨0, 1, 1, 0⟩).hs * d.frame.across,
          ∑ y ∈ Finset.range 8, ∑ x ∈ Finset.range 8,
            (d.recon c (8 * i + y) (8 * j + x) - sample o.w o.h o.d c (8 * i + y) (8 * j + x)) ^ 2 ≤ if c = 0 then 2925 else 5365 := by
  refine (main_leads_picture hl hex ha hn hne ho h (Or.inl hj) hf).mono ?_
  rintro r h' ⟨hperm, o, hr, p, rfl⟩
  rw [hw, if_pos rfl]
  obtain ⟨r1, r2, r3⟩ := hR o hr
  obtain ⟨l, d, h1, h2, h3, h4⟩ := jpeg_recon (w := o.w) (h := o.h) (data := o.d) ⟨p.img.w_pos, p.img.h_pos, r1, r2, r3, p.img.len⟩
  refine ⟨hperm, rfl, _, rfl, rfl, by simpa using hj, l, d, o, ?_, hr, h2, h3, h4⟩
  simp only [Int.toNat_natCast]
  exact h1

/-- `flatcv in.png flip_x, rotate 90, crop 1x1+0+1 out.jpg`: the file has one pixel. -/
example : ∃ M : MathLib, HOk (main Plat.lp64 M lib90 twoPixels
      ("flatcv".toList :: "in.png".toList :: (["flip_x,", "rotate", "90,", "crop", "1x1+0+1"].map String.toList ++ ["out.jpg".toList])))
    Heap.fresh fun r _ => ∃ s, r.2 = some s ∧ ∃ l d, stbi_write_jpg false true s.width.toNat s.height.toNat s.bytes = .ok (1, some l) ∧
      readJpeg l = some d ∧ d.frame.width = 1 ∧ d.frame.height = 1 := by
  obtain ⟨ex, hex⟩ := expOk_exists
  refine ⟨{ noMath with ex := ex }, (main_jpeg_file (by decide) hex ⟨by decide, by decide⟩ (by decide +kernel) (by decide +kernel) png_opens leads_example
    (by unfold JpegOut; decide +kernel) rfl ?_ (fun _ => rfl)).mono ?_⟩
  · rintro o rfl
    decide
  · rintro r h' ⟨-, -, s, h1, -, -, l, d, o, h2, rfl, h3, h4, -⟩
    exact ⟨s, h1, l, d, h2, h3, by rw [h4], by rw [h4]⟩

end FlatCV.Props
