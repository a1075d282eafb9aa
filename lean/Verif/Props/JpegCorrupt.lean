/-
Loading files that may be damaged JPEG files (C142).
-/
import Verif.Lemmas.JpegSafePixels
import Verif.Props.JpegLoad

namespace FlatCV.Props
open Model

/-! ### Statement -/

/-- `feof` is true once a read of the file returned nothing. -/
def FeofSound (feof : Ctx → Bool) : Prop := ∀ s : Ctx, s.live = false → s.buf = [] → feof s = true

/-- 16 bytes of the file, one after the other, add up to 256: only then can a Huffman table have 256 codes. -/
def FullTable (file : List UInt8) : Prop := ∃ p, (((file.drop p).take 16).map UInt8.toNat).sum = 256

/-- An image with all its bytes: at least one and at most 65535 pixels wide and high, from a file of one or three (or four) channels, four
bytes per pixel, all of them written. -/
structure WholeImage (L : Model.Loaded) : Prop where
  width : 1 ≤ L.x ∧ L.x ≤ 65535
  height : 1 ≤ L.y ∧ L.y ≤ 65535
  channels : L.n = 1 ∨ L.n = 3
  written : ∀ i < 4 * L.x * L.y, ∃ v, L.data[i]? = some (some v)

/-! ### Proof -/

theorem rest_start (file : List UInt8) : Ctx.rest (start_file file) = if file = [] then [0] else file := by
  unfold start_file refill
  rw [List.drop_zero]
  by_cases h : file = []
  · subst h
    rfl
  · rw [if_neg h]
    have : file.take 128 ≠ [] := by
      intro e
      rcases List.take_eq_nil_iff.mp e with e | e
      · exact absurd e (by decide)
      · exact h e
    rw [if_neg this]
    show file.take 128 ++ (if true = true then file.drop (0 + (file.take 128).length) else []) = file
    rw [if_pos rfl, List.length_take, Nat.zero_add]
    by_cases hl : 128 ≤ file.length
    · rw [Nat.min_eq_left hl, List.take_append_drop]
    · rw [Nat.min_eq_right (by omega), List.take_of_length_le (by omega), List.drop_length, List.append_nil]

theorem takeBytes_sum (n : Nat) (s : Ctx) : (takeBytes n s).1.sum = (((Ctx.rest s).take n).map UInt8.toNat).sum := by
  induction n generalizing s with
  | zero => rfl
  | succ n ih =>
    show ((get8 s).1.toNat :: (takeBytes n (get8 s).2).1).sum = _
    rw [List.sum_cons, ih]
    rcases get8_cases s with ⟨b, t, h1, h2, h3, h4⟩ | ⟨h1, h2, h3, h4, h5⟩
    · rw [h3, h2, h1]
      rfl
    · rw [h3, h2, h1, List.take_nil, List.take_nil]
      rfl

theorem full_of_onward {file : List UInt8} {s : Ctx} (h : Onward (start_file file) s) (hs : (takeBytes 16 s).1.sum = 256) : FullTable file := by
  rw [takeBytes_sum] at hs
  have hsuf := h.suf
  rw [rest_start] at hsuf
  by_cases hf : file = []
  · rw [if_pos hf] at hsuf
    exfalso
    rcases List.suffix_cons_iff.mp hsuf with e | e
    · rw [e] at hs
      exact absurd hs (by decide)
    · rw [List.suffix_nil.mp e] at hs
      exact absurd hs (by decide)
  · rw [if_neg hf] at hsuf
    obtain ⟨t, rfl⟩ := hsuf
    exact ⟨t.length, by rw [List.drop_left]; exact hs⟩

theorem not_png {file : List UInt8} (h : file.headD 0 ≠ 137) : (check_png_header (start_file file)).1 = false := by
  have h1 : (get8 (start_file file)).1 ≠ 137 := by
    have hr := rest_start file
    rcases get8_cases (start_file file) with ⟨b, t, h1, h2, _⟩ | ⟨_, h2, _⟩
    · rw [h2]
      rw [hr] at h1
      cases file with
      | nil =>
        rw [if_pos rfl] at h1
        injection h1 with h1
        subst h1
        decide
      | cons a l =>
        rw [if_neg (by simp)] at h1
        injection h1 with h1
        subst h1
        exact h
    · rw [h2]
      decide
  unfold check_png_header
  simp [h1]

variable {feof : Ctx → Bool}

/-- C142: loading any file that is not a PNG file: unless the file belongs to another decoder (`other`: another format; `prog`: a progressive
JPEG file), the loader refuses it, or returns a whole image, or one of three things happens: signed overflow, use of memory that was
never written, and, only if the file has room for a Huffman table with 256 codes, a failed assertion.  So nothing outside the buffers is
read or written, no null pointer is used, nothing is divided by zero and the loader always comes to an end, whether or not memory runs out. -/
theorem jpeg_any_file (hf : FeofSound feof) {file : List UInt8} (hp : file.headD 0 ≠ 137) (pm : PngMem) (mem : JpegMem) (prog other : CM (Option Model.Loaded)) :
    stbi_load_any pm mem feof prog other file = other ∨ stbi_load_any pm mem feof prog other file = prog ∨
    stbi_load_any pm mem feof prog other file = .ok none ∨
    (∃ L, stbi_load_any pm mem feof prog other file = .ok (some L) ∧ WholeImage L) ∨
    stbi_load_any pm mem feof prog other file = .error .signedOverflow ∨
    stbi_load_any pm mem feof prog other file = .error .uninitRead ∨
    (stbi_load_any pm mem feof prog other file = .error .exit ∧ FullTable file) := by
  unfold stbi_load_any
  rw [if_neg (by rw [not_png hp]; decide)]
  split
  · exact Or.inl rfl
  · split
    · exact Or.inl rfl
    · have ht : ∃ b, jpeg_test mem (start_file file) = .ok b := by
        unfold jpeg_test
        split
        · have := get_marker_out (E := fun _ => False) { Jst.start (start_file file) with e := ⟨start_file file, 0, 0, 0xFF, false⟩ }
          cases hm : get_marker { Jst.start (start_file file) with e := ⟨start_file file, 0, 0, 0xFF, false⟩ } with
          | error e =>
            rw [hm] at this
            exact absurd this id
          | ok r => exact ⟨_, rfl⟩
        · exact ⟨false, rfl⟩
      obtain ⟨b, hb⟩ := ht
      rw [hb, ok_bind]
      cases b with
      | false => exact Or.inl rfl
      | true =>
        rw [if_pos rfl]
        split
        · have hB : ∀ s, Onward (start_file file) s → (takeBytes 16 s).1.sum = 256 → FullTable file := fun s h1 h2 => full_of_onward h1 h2
          rcases load_jpeg_image_out hB hf mem prog with h | h
          · exact Or.inr (Or.inl h)
          · right; right
            cases hr : load_jpeg_image mem feof prog (start_file file) with
            | error e =>
              rw [hr] at h
              rcases h with h | h | h
              · rw [h]; exact Or.inr (Or.inr (Or.inl rfl))
              · rw [h]; exact Or.inr (Or.inr (Or.inr (Or.inl rfl)))
              · rw [h.1]; exact Or.inr (Or.inr (Or.inr (Or.inr ⟨rfl, h.2⟩)))
            | ok r =>
              rw [hr] at h
              cases r with
              | none => exact Or.inl rfl
              | some L =>
                have g := h L rfl
                exact Or.inr (Or.inl ⟨L, rfl, g.x, g.y, g.n, g.data⟩)
        · exact Or.inr (Or.inr (Or.inl rfl))

/-! ### The three things do happen -/

/-- The error of a computation. -/
def errOf {α : Type} : CM α → Option Fault
  | .ok _ => none
  | .error e => some e

theorem of_errOf {α : Type} {m : CM α} {e : Fault} (h : errOf m = some e) : m = .error e := by
  cases m with
  | ok a => cases h
  | error e' =>
    injection h with h
    rw [h]

/-- A possible `feof`: nothing is left in the file. -/
def endOf (s : Ctx) : Bool := decide (s.file.length ≤ s.fpos) || !s.live

theorem endOf_sound : FeofSound endOf := fun s h _ => by
  unfold endOf
  rw [h]
  simp

/-- A frame of one grey pixel, and no scan. -/
def noScan : List UInt8 := [0xFF, 0xD8, 0xFF, 0xC0, 0, 11, 8, 0, 1, 0, 1, 1, 1, 0x11, 0, 0xFF, 0xD9]

/-- A file of 17 bytes that is loaded "successfully", but with pixels from memory that was never written. -/
theorem jpeg_no_scan_uninit : stbi_load_any allPng allJpeg endOf (.ok none) (.ok none) noScan = .error .uninitRead := of_errOf (by decide +kernel)

/-- A Huffman table with one code, of 16 bits. -/
def oneCode (q v : UInt8) : List UInt8 := [0xFF, 0xC4, 0, 20, q] ++ List.replicate 15 0 ++ [1, v]

/-- One block with 63 coefficients of -32767. -/
def largeCoefs : List UInt8 := [0xFF, 0xD8, 0xFF, 0xDB, 0, 67, 0] ++ List.replicate 64 1 ++ oneCode 0 0 ++ oneCode 0x10 0x0F ++
  [0xFF, 0xC0, 0, 11, 8, 0, 1, 0, 1, 1, 1, 0x11, 0, 0xFF, 0xDA, 0, 8, 1, 1, 0, 0, 63, 0] ++ List.replicate 250 0 ++ [0xFF, 0xD9]

/-- Large coefficients overflow the inverse transform. -/
theorem jpeg_large_coefs_overflow : stbi_load_any allPng allJpeg endOf (.ok none) (.ok none) largeCoefs = .error .signedOverflow := of_errOf (by decide +kernel)

/-- A Huffman table with a code of 8 bits and 255 codes of 9 bits, whose last code is then used. -/
def fullTableFile : List UInt8 := [0xFF, 0xD8, 0xFF, 0xC4, 0x01, 0x13, 0, 0, 0, 0, 0, 0, 0, 0, 1, 255] ++ List.replicate 7 0 ++ List.replicate 256 0 ++
  [0xFF, 0xC0, 0, 11, 8, 0, 1, 0, 1, 1, 1, 0x11, 0, 0xFF, 0xDA, 0, 8, 1, 1, 0, 0, 63, 0, 0x80, 0, 0, 0, 0, 0, 0xFF, 0xD9]

/-- The 256th code has the number 255, which means "no code" in the table for short codes; the search that follows fails an assertion. -/
theorem jpeg_full_table_assert : stbi_load_any allPng allJpeg endOf (.ok none) (.ok none) fullTableFile = .error .exit := of_errOf (by decide +kernel)

theorem fullTableFile_full : FullTable fullTableFile := ⟨7, by decide +kernel⟩

/-- The file of a grey pixel that is loaded. -/
def greyPixel : List UInt8 := [0xFF, 0xD8, 0xFF, 0xDB, 0, 67, 0] ++ List.replicate 64 1 ++ oneCode 0 0 ++ oneCode 0x10 0 ++
  [0xFF, 0xC0, 0, 11, 8, 0, 1, 0, 1, 1, 1, 0x11, 0, 0xFF, 0xDA, 0, 8, 1, 1, 0, 0, 63, 0, 0, 0, 0, 0, 0xFF, 0xD9]

def pixelsOf : CM (Option Model.Loaded) → List (Option UInt8)
  | .ok (some L) => L.data
  | _ => []

example : pixelsOf (stbi_load_any allPng allJpeg endOf (.ok none) (.ok none) greyPixel) = [some 128, some 128, some 128, some 255, none] := by decide +kernel

end FlatCV.Props
