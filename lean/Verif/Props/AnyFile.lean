/-
Loading any file (C153).
-/
import Verif.Props.ImageFormat
import Verif.Props.JpegProg

namespace FlatCV.Props
open Model

/-- An image that can be used: it has pixels, and the four bytes of each have been written. -/
structure Usable (L : Model.Loaded) : Prop where
  width : 1 ≤ L.x ∧ L.x ≤ 16777216
  height : 1 ≤ L.y ∧ L.y ≤ 16777216
  channels : 1 ≤ L.n ∧ L.n ≤ 4
  written : ∀ i < L.x * L.y * 4, ∃ v, L.data[i]? = some (some v)

/-- The formats whose decoders are modelled, and files that are no images. -/
def Modelled (d : Format) : Prop := d = .png ∨ d = .jpeg ∨ d = .pnm ∨ d = .unknown

/-! ### Proof -/

theorem signed_of_detect {mem : Bool} {file : List UInt8} (h : detect mem file = .png) : Signed file := by
  have h1 : (pngFront (frontOf file)).1 = true := by
    by_contra hc
    unfold detect at h
    simp only at h
    rw [if_neg hc] at h
    split_ifs at h
  have h2 := match_prefix (by decide) h1
  rw [List.drop_zero, frontOf] at h2
  split at h2
  · exact absurd h2 (by decide)
  · obtain ⟨t, ht⟩ := h2.trans (List.take_prefix _ _)
    rw [Signed, ← ht]
    rfl

theorem empty_unknown (mem : Bool) : detect mem [] = .unknown := by cases mem <;> rfl

/-- C153: whatever bytes a file has and whichever requests for memory succeed: a file that belongs to no decoder, or to one for PNG, JPEG, PGM or PPM, is refused or
gives a whole image, or one of the faults below happens.  Reads outside the buffers, null pointers, divisions by zero and endless loops do not occur, and
writes outside the buffers only for images of at least 2^29 grey pixels with 16 bits.  (What a file starting with 127 bytes FF does is not modelled.) -/
theorem any_file_outcome {feof : Ctx → Bool} (hf : FeofSound feof) {file : List UInt8} (_hff : ¬ List.replicate 127 0xFF <+: file) (pm : PngMem) (mem : JpegMem) (cm : Nat → Bool)
    (nm : PnmMem) (others : Format → CM (Option Model.Loaded)) (hd : Modelled (detect mem.test file)) :
    match stbi_load_all pm mem cm nm feof others file with
    | .ok none => True
    | .ok (some L) => Usable L
    | .error .uninitRead => detect mem.test file = .jpeg ∨ (detect mem.test file = .png ∧ (¬ Apple file → file.getD 25 0 = 3))
    | .error .signedOverflow => detect mem.test file = .jpeg
    | .error .exit => detect mem.test file = .jpeg ∧ FullTable file
    | .error .oobWrite => (detect mem.test file = .pnm ∧ 1073741824 ≤ file.length) ∨
        (detect mem.test file = .png ∧ (¬ Apple file → file.getD 24 0 = 16 ∧ file.getD 25 0 = 0 ∧ 536870912 ≤ be32At file 16 * be32At file 20))
    | .error _ => False := by
  rcases hd with h | h | h | h
  · have hs := signed_of_detect h
    have e : stbi_load_all pm mem cm nm feof others file = stbi_load pm (.ok none) file := by
      obtain ⟨rest, e⟩ : ∃ rest, file = [137, 80, 78, 71, 13, 10, 26, 10] ++ rest := ⟨file.drop 8, by rw [← hs, List.take_append_drop]⟩
      rw [stbi_load, if_pos (do_png_eq e).1, stbi_load_all, h]
    have o := load_png_outcome_partial (m := pm) (other := .ok none) hs
    rw [e]
    cases hr : stbi_load pm (.ok none) file with
    | error f =>
      rw [hr] at o
      cases f with
      | uninitRead => exact Or.inr ⟨h, o⟩
      | oobWrite => exact Or.inr ⟨h, o⟩
      | _ => exact o.elim
    | ok r =>
      rw [hr] at o
      cases r with
      | none => trivial
      | some L =>
        obtain ⟨-, x0, x1, y0, y1, n0, n4, px, hp, hl⟩ := o
        refine ⟨⟨x0, x1⟩, ⟨y0, y1⟩, ⟨n0, n4⟩, fun i hi => ⟨px[i]'(by omega), ?_⟩⟩
        rw [hp, List.getElem?_map, List.getElem?_eq_getElem (by omega)]
        rfl
  · have good : ∀ m : CM (Option Model.Loaded), Outc (JE (FullTable file)) m (fun r => ∀ L, r = some L → GoodImage L) → stbi_load_all pm mem cm nm feof others file = m →
        match stbi_load_all pm mem cm nm feof others file with
        | .ok none => True
        | .ok (some L) => Usable L
        | .error .uninitRead => detect mem.test file = .jpeg ∨ (detect mem.test file = .png ∧ (¬ Apple file → file.getD 25 0 = 3))
        | .error .signedOverflow => detect mem.test file = .jpeg
        | .error .exit => detect mem.test file = .jpeg ∧ FullTable file
        | .error .oobWrite => (detect mem.test file = .pnm ∧ 1073741824 ≤ file.length) ∨
            (detect mem.test file = .png ∧ (¬ Apple file → file.getD 24 0 = 16 ∧ file.getD 25 0 = 0 ∧ 536870912 ≤ be32At file 16 * be32At file 20))
        | .error _ => False := by
      intro m o e
      rw [e]
      cases m with
      | error f =>
        rcases o with rfl | rfl | ⟨rfl, hB⟩
        · exact h
        · exact Or.inl h
        · exact ⟨h, hB⟩
      | ok r =>
        cases r with
        | none => trivial
        | some L =>
          have g := o L rfl
          have gx := g.x
          have gy := g.y
          have gn := g.n
          refine ⟨⟨gx.1, by omega⟩, ⟨gy.1, by omega⟩, by omega, fun i hi => g.data i (by rw [show 4 * L.x * L.y = L.x * L.y * 4 by ring]; exact hi)⟩
    have hB : ∀ s, Onward (start_file file) s → (takeBytes 16 s).1.sum = 256 → FullTable file := fun s h1 h2 => full_of_onward h1 h2
    by_cases hm : mem.state = true
    · have e : stbi_load_all pm mem cm nm feof others file = load_jpeg_image mem feof (load_prog_image mem cm feof (start_file file)) (start_file file) := by
        rw [stbi_load_all, h]
        exact if_pos hm
      rcases load_jpeg_image_out hB hf mem (load_prog_image mem cm feof (start_file file)) with o | o
      · exact good _ (load_prog_image_out hB hf mem cm) (e.trans o)
      · exact good _ o e
    · exact good (.ok none) (fun L e => by cases e) (by rw [stbi_load_all, h]; exact if_neg hm)
  · have h0 : file ≠ [] := by
      rintro rfl
      rw [empty_unknown] at h
      cases h
    have e : stbi_load_all pm mem cm nm feof others file = pnm_load nm feof (start_file file) := by rw [stbi_load_all, h]
    have o := pnm_load_out hf h0 nm
    rw [e]
    cases hr : pnm_load nm feof (start_file file) with
    | error f =>
      rw [hr] at o
      obtain ⟨rfl, hl⟩ := o
      exact Or.inl ⟨h, hl⟩
    | ok r =>
      rw [hr] at o
      cases r with
      | none => trivial
      | some L =>
        have g := o L rfl
        have gc := g.channels
        exact ⟨g.width, g.height, by omega, g.written⟩
  · rw [stbi_load_all, h]
    trivial

/-! ### Cases -/

/-- The hypotheses hold for a text and for a PGM file. -/
example : Modelled (detect true hello) ∧ Modelled (detect true twoGrey) ∧ ¬ List.replicate 127 0xFF <+: hello ∧ ¬ List.replicate 127 0xFF <+: twoGrey := by
  refine ⟨Or.inr (Or.inr (Or.inr (by decide +kernel))), Or.inr (Or.inr (Or.inl (by decide +kernel))), by decide +kernel, by decide +kernel⟩

/-- One of the faults, with all formats: the JPEG file of C142 whose image was never written. -/
example (others : Format → CM (Option Model.Loaded)) : stbi_load_all allPng allJpeg allCoef allPnm endOf others
    [0xFF, 0xD8, 0xFF, 0xC2, 0, 11, 8, 0, 1, 0, 1, 1, 1, 0x11, 0, 0xFF, 0xD9] = .error .uninitRead :=
  (all_jpeg (by constructor <;> first | rfl | (intros; rfl)) _ _ _ _ _ _ _ _ (.ok none)).trans jpeg_prog_no_scan_uninit

end FlatCV.Props
