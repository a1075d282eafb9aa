/-
Which files are taken for images (C151).
-/
import Verif.Model.ImageFormat
import Verif.Props.Pnm
import Verif.Props.PngLoad
import Verif.Lemmas.JpegLoadFile

namespace FlatCV.Props
open Model

/-- The signatures of the formats. -/
def signatures : List (List UInt8) :=
  [[137, 80, 78, 71, 13, 10, 26, 10], [66, 77], [71, 73, 70, 56], [56, 66, 80, 83], [0x53, 0x80, 0xF6, 0x34], [80, 53], [80, 54],
    [35, 63, 82, 65, 68, 73, 65, 78, 67, 69, 10], [35, 63, 82, 71, 66, 69, 10]]

/-! ### Proof -/

theorem match_prefix {f : Front} : ∀ {l : List UInt8} {k : Nat}, (∀ b ∈ l, b ≠ 0) → (matchBytes l k f).1 = true → l <+: f.bytes.drop k := by
  intro l
  induction l with
  | nil => intro k _ _; exact List.nil_prefix
  | cons b l ih =>
    intro k h0 h
    rw [matchBytes] at h
    by_cases hb : f.byte k = b
    · rw [if_pos hb] at h
      have h1 := ih (fun x hx => h0 x (List.mem_cons_of_mem _ hx)) h
      have hk : k < f.bytes.length := by
        by_contra hk
        rw [Front.byte, List.getD_eq_getElem?_getD, List.getElem?_eq_none (by omega)] at hb
        exact h0 b List.mem_cons_self hb.symm
      rw [List.drop_eq_getElem_cons hk]
      rw [Front.byte, List.getD_eq_getElem?_getD, List.getElem?_eq_getElem hk, Option.getD_some] at hb
      rw [hb]
      exact List.cons_prefix_cons.mpr ⟨rfl, h1⟩
    · rw [if_neg hb] at h
      cases h

theorem match_of_prefix {f : Front} : ∀ {l : List UInt8} {k : Nat}, l <+: f.bytes.drop k → matchBytes l k f = (true, k + l.length) := by
  intro l
  induction l with
  | nil => intro k _; rfl
  | cons b l ih =>
    intro k h
    have hk : k < f.bytes.length := by
      have := h.length_le
      rw [List.length_cons, List.length_drop] at this
      omega
    rw [List.drop_eq_getElem_cons hk] at h
    obtain ⟨h1, h2⟩ := List.cons_prefix_cons.mp h
    rw [matchBytes, if_pos (by rw [Front.byte, List.getD_eq_getElem?_getD, List.getElem?_eq_getElem hk, Option.getD_some]; exact h1.symm), ih h2, List.length_cons]
    congr 1
    omega

/-- What the tests find at the start of the file. -/
def Seen (file : List UInt8) (f : Front) : Prop := f.bytes = file.take 128 ∨ f.bytes = 0 :: (file.take 128).tail

theorem seen_back {file : List UInt8} {f : Front} (h : Seen file f) (k : Nat) : Seen file (f.back k) := by
  rw [Front.back]
  split
  · rcases h with h | h
    · exact Or.inr (by rw [h])
    · exact Or.inr (by rw [h]; rfl)
  · exact h

theorem seen_match {file : List UInt8} {f : Front} (h : Seen file f) {l : List UInt8} (h0 : ∀ b ∈ l, b ≠ 0) (hne : l ≠ []) (hs : ¬ l <+: file) : (matchBytes l 0 f).1 = false := by
  rw [← Bool.not_eq_true]
  intro hm
  have hp := match_prefix h0 hm
  rw [List.drop_zero] at hp
  rcases h with h | h
  · rw [h] at hp
    exact hs (hp.trans (List.take_prefix _ _))
  · rw [h] at hp
    match l, hne, hp with
    | b :: l, _, hp => exact h0 b List.mem_cons_self (List.cons_prefix_cons.mp hp).1

theorem seen_byte1 {file : List UInt8} {f : Front} (hf : file ≠ []) (h : Seen file f) : f.byte 1 = file.getD 1 0 := by
  match file, hf with
  | a :: l, _ =>
    rcases h with h | h
    · rw [Front.byte, h]
      cases l <;> rfl
    · rw [Front.byte, h]
      cases l <;> rfl

theorem seen_byte0 {file : List UInt8} {f : Front} (hf : file ≠ []) (h : Seen file f) : f.byte 0 = file.getD 0 0 ∨ f.byte 0 = 0 := by
  match file, hf with
  | a :: l, _ =>
    rcases h with h | h
    · rw [Front.byte, h]
      exact Or.inl rfl
    · rw [Front.byte, h]
      exact Or.inr rfl

theorem seen_byte2 {file : List UInt8} {f : Front} (h1 : file.length = 1) (h : Seen file f) : f.byte 2 = 0 := by
  match file, h1 with
  | [a], _ =>
    rcases h with h | h
    · rw [Front.byte, h]
      rfl
    · rw [Front.byte, h]
      rfl

theorem unknown_front {file : List UInt8} (hf : file ≠ []) (hs : ∀ s ∈ signatures, ¬ s <+: file) (h255 : file.getD 0 0 ≠ 0xFF) (h1 : file.length = 1 ∨ 1 < file.getD 1 0) (mem : Bool) :
    detect mem file = .unknown := by
  have s0 : Seen file (frontOf file) := by rw [frontOf, if_neg hf]; exact Or.inl rfl
  have no : ∀ {f : Front}, Seen file f → ∀ l ∈ signatures, (∀ b ∈ l, b ≠ 0) → l ≠ [] → (matchBytes l 0 f).1 = false := fun h l hl h0 hne => seen_match h h0 hne (hs l hl)
  unfold detect
  simp only
  have e1 : (pngFront (frontOf file)).1 = false := no s0 _ (by simp [signatures]) (by decide) (by decide)
  rw [e1, if_neg Bool.false_ne_true]
  have s1 := seen_back s0 (pngFront (frontOf file)).2
  generalize (frontOf file).back (pngFront (frontOf file)).2 = f1 at s1 ⊢
  have e2 : (bmpFront f1).1 = false := by
    have := no s1 [66, 77] (by simp [signatures]) (by decide) (by decide)
    rw [bmpFront, this, if_neg Bool.false_ne_true, this]
  rw [e2, if_neg Bool.false_ne_true]
  have s2 := seen_back s1 (bmpFront f1).2
  generalize f1.back (bmpFront f1).2 = f2 at s2 ⊢
  have e3 : (gifFront f2).1 = false := by
    have := no s2 [71, 73, 70, 56] (by simp [signatures]) (by decide) (by decide)
    rw [gifFront, this, if_neg Bool.false_ne_true, this]
  rw [e3, if_neg Bool.false_ne_true]
  have s3 := seen_back s2 (gifFront f2).2
  generalize f2.back (gifFront f2).2 = f3 at s3 ⊢
  have e4 : (psdFront f3).1 = false := no s3 _ (by simp [signatures]) (by decide) (by decide)
  rw [e4, if_neg Bool.false_ne_true]
  have s4 := seen_back s3 (psdFront f3).2
  generalize f3.back (psdFront f3).2 = f4 at s4 ⊢
  have e5 : (picFront f4).1 = false := by
    have := no s4 [0x53, 0x80, 0xF6, 0x34] (by simp [signatures]) (by decide) (by decide)
    rw [picFront, this, if_neg Bool.false_ne_true, this]
  rw [e5, if_neg Bool.false_ne_true]
  have s5 := seen_back s4 (picFront f4).2
  generalize f4.back (picFront f4).2 = f5 at s5 ⊢
  have e6 : (jpegFront mem f5).1 = false := by
    have : f5.byte 0 ≠ 0xFF := by
      rcases seen_byte0 hf s5 with h | h
      · rw [h]
        exact h255
      · rw [h]
        decide
    rw [jpegFront, if_neg this]
    cases mem <;> rfl
  rw [e6, if_neg Bool.false_ne_true]
  have s6 := seen_back s5 (jpegFront mem f5).2
  generalize f5.back (jpegFront mem f5).2 = f6 at s6 ⊢
  have e7 : (pnmFront f6).1 = false := by
    rw [pnmFront]
    refine decide_eq_false ?_
    rintro ⟨h80, h5⟩
    have m5 := no s6 [80, 53] (by simp [signatures]) (by decide) (by decide)
    have m6 := no s6 [80, 54] (by simp [signatures]) (by decide) (by decide)
    rw [matchBytes, if_pos h80, matchBytes] at m5 m6
    rcases h5 with h5 | h5
    · rw [if_pos h5] at m5
      cases m5
    · rw [if_pos h5] at m6
      cases m6
  rw [e7, if_neg Bool.false_ne_true]
  have s7 := seen_back s6 (pnmFront f6).2
  generalize f6.back (pnmFront f6).2 = f7 at s7 ⊢
  have m1 := no s7 [35, 63, 82, 65, 68, 73, 65, 78, 67, 69, 10] (by simp [signatures]) (by decide) (by decide)
  have s8 := seen_back s7 (matchBytes [35, 63, 82, 65, 68, 73, 65, 78, 67, 69, 10] 0 f7).2
  have m2 := no s8 [35, 63, 82, 71, 66, 69, 10] (by simp [signatures]) (by decide) (by decide)
  have e8 : (hdrFront f7).1 = false := by
    rw [hdrFront]
    simp only
    rw [if_neg (by rw [m1]; exact Bool.false_ne_true)]
    exact m2
  have s9 : Seen file (hdrFront f7).2 := by
    rw [hdrFront]
    simp only
    rw [if_neg (by rw [m1]; exact Bool.false_ne_true)]
    exact seen_back s8 _
  rw [e8, if_neg Bool.false_ne_true]
  generalize (hdrFront f7).2 = f9 at s9 ⊢
  have e9 : tgaFront f9 = false := by
    rw [tgaFront, seen_byte1 hf s9]
    rcases h1 with h1 | h1
    · have : file.getD 1 0 = 0 := by
        match file, h1 with
        | [a], _ => rfl
      rw [this, seen_byte2 h1 s9, if_neg (by decide), if_neg (by decide), if_pos (by decide)]
    · rw [if_pos h1]
  rw [e9, if_neg Bool.false_ne_true]

/-- C151: a file that has none of the signatures, does not start with FF, and whose second byte is greater than 1, is refused, whatever
comes then: no decoder is called. -/
theorem unknown_refused {file : List UInt8} (hf : file ≠ []) (hs : ∀ s ∈ signatures, ¬ s <+: file) (h255 : file.getD 0 0 ≠ 0xFF)
    (h1 : file.length = 1 ∨ 1 < file.getD 1 0) (pm : PngMem) (mem : JpegMem) (cm : Nat → Bool) (nm : PnmMem) (feof : Ctx → Bool) (other : Format → CM (Option Model.Loaded)) :
    stbi_load_all pm mem cm nm feof other file = .ok none := by
  rw [stbi_load_all, unknown_front hf hs h255 h1]
  rfl

/-- C151: in particular, a text is refused: a file without control characters other than white space that does not start like a `P5`, `P6`, Radiance, BMP,
GIF, or PSD file. -/
theorem text_refused {file : List UInt8} (hf : file ≠ []) (ht : ∀ b ∈ file, 9 ≤ b ∧ b < 127) (hs : ∀ s ∈ signatures, ¬ s <+: file)
    (pm : PngMem) (mem : JpegMem) (cm : Nat → Bool) (nm : PnmMem) (feof : Ctx → Bool) (other : Format → CM (Option Model.Loaded)) :
    stbi_load_all pm mem cm nm feof other file = .ok none := by
  match file, hf with
  | [a], _ =>
    refine unknown_refused (by simp) hs ?_ (Or.inl rfl) pm mem cm nm feof other
    rintro h
    have := (ht a (by simp)).2
    rw [show a = 0xFF from h] at this
    exact absurd this (by decide)
  | a :: b :: l, _ =>
    refine unknown_refused (by simp) hs ?_ (Or.inr ?_) pm mem cm nm feof other
    · rintro h
      have := (ht a (by simp)).2
      rw [show a = 0xFF from h] at this
      exact absurd this (by decide)
    · have h9 := (ht b (by simp)).1
      rw [UInt8.le_iff_toNat_le] at h9
      show (1 : UInt8) < b
      rw [UInt8.lt_iff_toNat_lt]
      exact Nat.lt_of_lt_of_le (by decide) h9

/-- C151: an empty file is refused. -/
theorem empty_refused (pm : PngMem) (mem : JpegMem) (cm : Nat → Bool) (nm : PnmMem) (feof : Ctx → Bool) (other : Format → CM (Option Model.Loaded)) :
    stbi_load_all pm mem cm nm feof other [] = .ok none := by
  rw [stbi_load_all]
  cases mem.test <;> rfl

/-- PNG files reach the PNG decoder. -/
theorem png_recognised (l : List UInt8) (mem : Bool) : detect mem ([137, 80, 78, 71, 13, 10, 26, 10] ++ l) = .png := by
  unfold detect
  simp only
  rw [if_pos]
  rw [pngFront, match_of_prefix]
  rw [frontOf, if_neg (by simp), List.drop_zero]
  exact ⟨l.take 120, by simp⟩

theorem front_four {a b c d : UInt8} {l : List UInt8} : ∃ m, frontOf (a :: b :: c :: d :: l) = ⟨a :: b :: c :: d :: m, true⟩ := by
  rw [frontOf, if_neg (by simp)]
  exact ⟨l.take 124, rfl⟩

theorem back_four {a b c d : UInt8} {m : List UInt8} {k : Nat} (h : k ≤ 4) : (⟨a :: b :: c :: d :: m, true⟩ : Front).back k = ⟨a :: b :: c :: d :: m, true⟩ := by
  rw [Front.back, if_neg]
  rintro ⟨h1, -⟩
  simp only [List.length_cons] at h1
  omega

/-- JPEG files reach the JPEG decoder, if there is memory for the test and the file has four bytes. -/
theorem jpeg_recognised (a b : UInt8) (l : List UInt8) : detect true (0xFF :: 0xD8 :: a :: b :: l) = .jpeg := by
  obtain ⟨m, hm⟩ := front_four (a := 0xFF) (b := 0xD8) (c := a) (d := b) (l := l)
  unfold detect
  rw [hm]
  simp [pngFront, bmpFront, gifFront, psdFront, picFront, jpegFront, matchBytes, back_four, Front.byte]

/-- PGM and PPM files reach their decoder. -/
theorem pnm_recognised {magic : UInt8} (hm : magic = 53 ∨ magic = 54) (a b : UInt8) (l : List UInt8) (mem : Bool) : detect mem (80 :: magic :: a :: b :: l) = .pnm := by
  obtain ⟨m, hf⟩ := front_four (a := 80) (b := magic) (c := a) (d := b) (l := l)
  unfold detect
  rw [hf]
  rcases hm with rfl | rfl <;> cases mem <;>
    simp [pngFront, bmpFront, gifFront, psdFront, picFront, jpegFront, pnmFront, matchBytes, back_four, Front.byte]

/-- C151: with all formats in their order, a valid PNG file is loaded as C125 says: the tests for the other formats make no difference. -/
theorem all_png {file : List UInt8} {p : Png.Parts} {s : Png.Samples} (I : Png.IsPng file p s) (pm : PngMem) (mem : JpegMem) (cm : Nat → Bool) (nm : PnmMem) (feof : Ctx → Bool)
    (others : Format → CM (Option Model.Loaded)) (other : CM (Option Model.Loaded)) : stbi_load_all pm mem cm nm feof others file = stbi_load pm other file := by
  obtain ⟨rest, e⟩ : ∃ rest, file = [137, 80, 78, 71, 13, 10, 26, 10] ++ rest := ⟨_, by rw [I.bytes, Png.Parts.bytes]; simp only [List.append_assoc]; rfl⟩
  rw [stbi_load, if_pos (do_png_eq e).1, stbi_load_all, e, png_recognised]

/-- C151: the same for files that start like a JPEG file. -/
theorem all_jpeg {mem : JpegMem} (hm : JpegMem.Enough mem) (a b : UInt8) (l : List UInt8) (pm : PngMem) (cm : Nat → Bool) (nm : PnmMem) (feof : Ctx → Bool)
    (others : Format → CM (Option Model.Loaded)) (other : CM (Option Model.Loaded)) :
    stbi_load_all pm mem cm nm feof others (0xFF :: 0xD8 :: a :: b :: l) = stbi_load_file pm mem cm feof other (0xFF :: 0xD8 :: a :: b :: l) := by
  rw [stbi_load_file, any_jpeg hm, stbi_load_all, hm.test, jpeg_recognised]
  exact if_pos hm.state

/-- C151: the same for valid PGM and PPM files. -/
theorem all_pnm {feof : Ctx → Bool} (hf : FeofHonest feof) {file px : List UInt8} {n w h maxv : Nat} (H : Pnm.IsPnm file n w h maxv px) (hw : w ≤ 16777216) (hh : h ≤ 16777216)
    (pm : PngMem) (mem : JpegMem) (cm : Nat → Bool) (nm : PnmMem) (others : Format → CM (Option Model.Loaded)) (other : CM (Option Model.Loaded)) :
    stbi_load_all pm mem cm nm feof others file = stbi_load_pnm pm mem cm nm feof other file := by
  rw [load_main_pnm (pnm_header_ok hf H hw hh).1 (pnm_head80 H)]
  obtain ⟨magic, g1, tw, g2, th, g3, tm, sp, hfile, -, -, -, -, n1, n2, -, -, -, -, hm⟩ := H.parts
  obtain ⟨a, b, l, e⟩ : ∃ a b l, file = 80 :: magic :: a :: b :: l := by
    match g1, n1, hfile with
    | a :: g, _, hfile =>
      have : g ++ tw ++ g2 ++ th ++ g3 ++ tm ++ [sp] ++ px ≠ [] := by simp
      match hq : g ++ tw ++ g2 ++ th ++ g3 ++ tm ++ [sp] ++ px, this with
      | b :: l, _ => exact ⟨a, b, l, by rw [hfile, ← hq]; simp⟩
  have : detect mem.test file = .pnm := by
    rw [e]
    exact pnm_recognised (hm.imp And.left And.left) a b l _
  rw [stbi_load_all, this]

/-! ### Cases -/

/-- `hello`. -/
def hello : List UInt8 := [104, 101, 108, 108, 111]

example : hello ≠ [] ∧ (∀ b ∈ hello, 9 ≤ b ∧ b < 127) ∧ ∀ s ∈ signatures, ¬ s <+: hello := by decide +kernel

/-- The file of two grey pixels from above, with all formats. -/
example (others : Format → CM (Option Model.Loaded)) : ∃ out, stbi_load_all allPng allJpeg allCoef allPnm atEnd others twoGrey = .ok (some ⟨2, 1, 1, out⟩) := by
  obtain ⟨out, h1, -⟩ := load_pnm_exact atEnd_honest twoGrey_isPnm (by decide) (by decide) (by decide) (by decide) allPng allJpeg allCoef (nm := allPnm) ⟨rfl, rfl, rfl⟩ (.ok none)
  exact ⟨out, (all_pnm atEnd_honest twoGrey_isPnm (by decide) (by decide) allPng allJpeg allCoef allPnm others (.ok none)).trans h1⟩

/-- The second byte matters: this is no text, and is taken for a TGA file. -/
example : detect true [104, 0, 2, 0, 0, 0, 0, 0, 0, 0, 0, 0, 1, 0, 1, 0, 24, 0] = .tga := by decide +kernel

/-- A file that is cut after `P5` is not taken for a PGM file: testing for PSD has overwritten its first byte. -/
example : detect true [80, 53] = .unknown := by decide +kernel

end FlatCV.Props
