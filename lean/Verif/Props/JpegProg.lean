/-
Loading files that may be damaged progressive JPEG files (C143).
-/
import Verif.Lemmas.JpegSafeProgScan
import Verif.Props.JpegCorrupt

namespace FlatCV.Props
open Model

/-- C143: as C142, with progressive JPEG files decoded too: loading any file that is not a PNG file and not of another format (`other`)
ends with a refusal, with a whole image, or with one of the same three faults, whichever requests for memory succeed. -/
theorem jpeg_any_file_progressive {feof : Ctx → Bool} (hf : FeofSound feof) {file : List UInt8} (hp : file.headD 0 ≠ 137) (pm : PngMem) (mem : JpegMem) (cm : Nat → Bool)
    (other : CM (Option Model.Loaded)) :
    stbi_load_file pm mem cm feof other file = other ∨
    stbi_load_file pm mem cm feof other file = .ok none ∨
    (∃ L, stbi_load_file pm mem cm feof other file = .ok (some L) ∧ WholeImage L) ∨
    stbi_load_file pm mem cm feof other file = .error .signedOverflow ∨
    stbi_load_file pm mem cm feof other file = .error .uninitRead ∨
    (stbi_load_file pm mem cm feof other file = .error .exit ∧ FullTable file) := by
  unfold stbi_load_file
  rcases jpeg_any_file hf hp pm mem (load_prog_image mem cm feof (start_file file)) other with h | h | h
  · exact Or.inl h
  · right
    rw [h]
    have h := load_prog_image_out (B := FullTable file) (s0 := start_file file) (fun s h1 h2 => full_of_onward h1 h2) hf mem cm
    cases hr : load_prog_image mem cm feof (start_file file) with
    | error e =>
      rw [hr] at h
      rcases h with h | h | h
      · rw [h]; exact Or.inr (Or.inr (Or.inl rfl))
      · rw [h]; exact Or.inr (Or.inr (Or.inr (Or.inl rfl)))
      · rw [h.1]; exact Or.inr (Or.inr (Or.inr (Or.inr ⟨rfl, h.2⟩)))
    | ok r =>
      rw [hr] at h
      cases r with
      | none => exact Or.inl rfl
      | some L =>
        have g := h L rfl
        exact Or.inr (Or.inl ⟨L, rfl, g.x, g.y, g.n, g.data⟩)
  · exact Or.inr h

/-! ### Cases -/

def allCoef : Nat → Bool := fun _ => true

/-- A progressive file of one grey pixel, up to the end of its first scan. -/
def greyScan : List UInt8 := [0xFF, 0xD8, 0xFF, 0xDB, 0, 67, 0] ++ List.replicate 64 1 ++ oneCode 0 0 ++ oneCode 0x10 0 ++
  [0xFF, 0xC2, 0, 11, 8, 0, 1, 0, 1, 1, 1, 0x11, 0, 0xFF, 0xDA, 0, 8, 1, 1, 0, 0, 0, 0, 0, 0]

/-- With the marker at the end, the file is loaded. -/
example : pixelsOf (stbi_load_file allPng allJpeg allCoef endOf (.ok none) (greyScan ++ [0xFF, 0xD9])) = [some 128, some 128, some 128, some 255, none] := by decide +kernel

/-- If only the marker at the end is missing, the coefficients are never turned into samples: the file is loaded "successfully", with an
image made of memory that was never written. -/
theorem jpeg_prog_cut_uninit : stbi_load_file allPng allJpeg allCoef endOf (.ok none) greyScan = .error .uninitRead := of_errOf (by decide +kernel)

/-- A progressive file without a scan: its coefficients were never written. -/
theorem jpeg_prog_no_scan_uninit : stbi_load_file allPng allJpeg allCoef endOf (.ok none)
    [0xFF, 0xD8, 0xFF, 0xC2, 0, 11, 8, 0, 1, 0, 1, 1, 1, 0x11, 0, 0xFF, 0xD9] = .error .uninitRead := of_errOf (by decide +kernel)

end FlatCV.Props
