/-
The PNG file that the program leaves behind (C120).
-/
import Verif.Props.CliWhole
import Verif.Props.Png

namespace FlatCV.Props
open Model Spec Png

variable {P : Plat} {M : MathLib} {L : Lib} {W : World} {i : Sized} {R : Sized → Prop}

/-- C120: the program is called with a file in which it sees the image `i`, with arguments whose text leads from `i` to results in `R`, and
with a writable output file whose name does not end in `.jpg` or `.jpeg`.  Unless an allocation fails it returns 0, and calling the PNG
writer for the image it saved leaves a file in which a PNG reader finds a result in `R`, byte for byte, provided the result has rows of
less than 2^22 pixels and no more than about 150 million pixels. -/
theorem main_png_file (hl : 2147483647 ≤ L.lmax) (hex : ExpOk M.ex) {prog inp out : List Char} {args : List (List Char)} (ha : Args P args)
    (hn : (pieces (joined args)).length < 1073741824) (hne : pieces (joined args) ≠ [])
    (ho : Opens W inp i) (h : Leads L.atof (pieces (joined args)) i R) (hj : ¬ JpegOut out) (hw : W.writable out = true)
    (hR : ∀ o, R o → o.w < 4194304 ∧ o.h * (o.w * 4 + 1) ≤ 600000000) {hp : Heap} (hf : ∀ j, hp.fails j = false) :
    HOk (main P M L W (prog :: inp :: (args ++ [out]))) hp fun r h' => h'.live.Perm hp.live ∧ r.1 = 0 ∧ ∃ s, r.2 = some s ∧ s.path = out ∧
      s.jpeg = false ∧ ∀ g : Heap, Plenty g → ∃ l k o, stbi_write_png true s.width.toNat s.height.toNat 4 s.bytes (s.width * 4).toNat g =
        .ok ((1, some l), ⟨k, g.live, g.fails⟩) ∧ R o ∧ readPng l = some ⟨o.w, o.h, 4, o.d⟩ := by
  refine (main_leads_picture hl hex ha hn hne ho h (Or.inr fun o ho => by have := (hR o ho).1; omega) hf).mono ?_
  rintro r h' ⟨hperm, o, hr, p, rfl⟩
  rw [hw, if_pos rfl]
  refine ⟨hperm, rfl, _, rfl, rfl, by simpa using hj, fun g hg => ?_⟩
  obtain ⟨r1, r2⟩ := hR o hr
  obtain ⟨l, h1, h2⟩ := png_round_trip (x := o.w) (y := o.h) (n := 4) (stride := o.w * 4) (px := o.d)
    ⟨p.img.w_pos, p.img.h_pos, by omega, le_rfl, by omega, r2⟩ (Or.inr rfl) (by rw [p.img.len]) hg
  refine ⟨l, g.next + 5, o, ?_, hr, h2⟩
  have e : ((o.w : Int) * 4).toNat = o.w * 4 := by omega
  simp only [Int.toNat_natCast, e]
  exact h1

/-- `flatcv in.png flip_x, rotate 90, crop 1x1+0+1 out.png`: the file holds the one pixel 1, 2, 3, 4. -/
example : ∃ M : MathLib, HOk (main Plat.lp64 M lib90 twoPixels
      ("flatcv".toList :: "in.png".toList :: (["flip_x,", "rotate", "90,", "crop", "1x1+0+1"].map String.toList ++ ["out.png".toList])))
    Heap.fresh fun r _ => ∃ s, r.2 = some s ∧ ∃ l k, stbi_write_png true s.width.toNat s.height.toNat 4 s.bytes (s.width * 4).toNat Heap.fresh =
      .ok ((1, some l), k) ∧ readPng l = some ⟨1, 1, 4, [1, 2, 3, 4]⟩ := by
  obtain ⟨ex, hex⟩ := expOk_exists
  refine ⟨{ noMath with ex := ex }, (main_png_file (by decide) hex ⟨by decide, by decide⟩ (by decide +kernel) (by decide +kernel) png_opens leads_example
    (by unfold JpegOut; decide +kernel) rfl ?_ (fun _ => rfl)).mono ?_⟩
  · rintro o rfl
    decide
  · rintro r h' ⟨-, -, s, h1, -, -, h2⟩
    obtain ⟨l, k, o, h3, rfl, h4⟩ := h2 Heap.fresh fun _ _ => rfl
    exact ⟨s, h1, l, _, h3, h4⟩

end FlatCV.Props
