/-
Loading PGM and PPM files (C147-C149).
-/
import Verif.Lemmas.PnmHead
import Verif.Props.JpegProg

namespace FlatCV.Props
open Model Pnm

/-- `feof` is true only when the file was read to its end. -/
def FeofHonest (feof : Ctx → Bool) : Prop := ∀ s : Ctx, feof s = true → s.file.length ≤ s.fpos

/-- All requests for memory succeed. -/
def PnmMem.Enough (m : PnmMem) : Prop := m.data = true ∧ m.convert = true ∧ m.reduce = true

/-- The level 0 to 255 that is nearest to sample `v` of 0 to `maxv`. -/
def Nearest (maxv v : Nat) (b : UInt8) : Prop := 2 * v * 255 ≤ 2 * b.toNat * maxv + maxv ∧ 2 * b.toNat * maxv ≤ 2 * v * 255 + maxv

/-- `data` shows the image with samples `s p c` of pixel `p` and channel `c`, opaque, where sample `v` is shown as `f v`. -/
def ShowsBytes (data : Cells UInt8) (count : Nat) (f : Nat → Nat → UInt8) : Prop :=
  data.length = count * 4 ∧ ∀ p, p < count → (∀ c, c < 3 → data[p * 4 + c]? = some (some (f p c))) ∧ data[p * 4 + 3]? = some (some 255)

/-! ### Files that start with `P5` or `P6` -/

theorem load_main_pnm {pm : PngMem} {mem : JpegMem} {cm : Nat → Bool} {nm : PnmMem} {feof : Ctx → Bool} {other : CM (Option Model.Loaded)} {file : List UInt8}
    (ht : pnm_test (start_file file) = true) (h0 : file.headD 0 = 80) :
    stbi_load_pnm pm mem cm nm feof other file = pnm_load nm feof (start_file file) := by
  rw [stbi_load_pnm, if_pos ht, stbi_load_file, stbi_load_any]
  have hc : file ≠ [] := by rintro rfl; cases h0
  have hb : (get8 (start_file file)).1 = 80 := by
    obtain ⟨h1, _, h3⟩ := start_next file
    rw [(get8_next h1).1, h3, if_neg hc, List.append_nil, h0]
  rw [if_neg (by rw [not_png (by rw [h0]; decide)]; decide), if_neg (by rw [h0]; decide), if_neg ?_]
  · have : jpeg_test mem (start_file file) = .ok false := by
      rw [jpeg_test]
      split
      · rw [get_marker, if_neg (by simp), if_pos (by show (get8 (start_file file)).1 ≠ 0xFF; rw [hb]; decide)]
        rfl
      · rfl
    rw [this, ok_bind]
    rfl
  · match file, h0 with
    | b :: l, h0 =>
      rw [show b = 80 from h0]
      simp

theorem pnm_head80 {file px : List UInt8} {n w h maxv : Nat} (H : IsPnm file n w h maxv px) : file.headD 0 = 80 := by
  obtain ⟨magic, g1, tw, g2, th, g3, tm, sp, hfile, _⟩ := H.parts
  rw [hfile]
  simp

/-- Valid files: which bytes are shown. -/
theorem load_pnm_bytes {feof : Ctx → Bool} (hf : FeofHonest feof) {file px : List UInt8} {n w h maxv : Nat} (H : IsPnm file n w h maxv px)
    (hw : w ≤ 16777216) (hh : h ≤ 16777216) (hs : w * h < 536870912) (hd : px.length ≤ 2147483647) (pm : PngMem) (mem : JpegMem) (cm : Nat → Bool)
    {nm : PnmMem} (hm : PnmMem.Enough nm) (other : CM (Option Model.Loaded)) :
    ∃ out, stbi_load_pnm pm mem cm nm feof other file = .ok (some ⟨w, h, n, out⟩) ∧
      ShowsBytes out (w * h) fun p c => usedByte (8 * sampleSize maxv) px (if n = 3 then p * 3 + c else p) := by
  obtain ⟨ht, r, hr, s, rfl, hs1, hs2⟩ := pnm_header_ok hf H hw hh
  rw [load_main_pnm ht (pnm_head80 H), pnm_load, hr, ok_bind]
  have hn : n = 1 ∨ n = 3 := by
    obtain ⟨_, _, _, _, _, _, _, _, _, _, _, _, _, _, _, _, _, _, _, h⟩ := H.parts
    omega
  have hb : 8 * sampleSize maxv = 8 ∨ 8 * sampleSize maxv = 16 := by unfold sampleSize; split <;> omega
  have hz : n * w * h * (8 * sampleSize maxv / 8) = px.length := by rw [H.size, Nat.mul_div_cancel_left _ (by omega)]
  obtain ⟨_, e, L, rfl, hL⟩ := pnmPixels_ok (m := nm) (h := ⟨8 * sampleSize maxv, w, h, n, s⟩) hs1 hb hn
    ⟨hm, ⟨H.width, hw⟩, ⟨H.height, hh⟩, hs, by show n * w * h * (8 * sampleSize maxv / 8) ≤ _; rw [hz]; exact hd⟩
    (by show n * w * h * (8 * sampleSize maxv / 8) ≤ (Ctx.rem s).length; rw [hz, hs2])
  obtain ⟨l1, l2, l3, l4, l5⟩ := hL
  refine ⟨L.data, ?_, l4, ?_⟩
  · show pnmPixels nm _ = _
    rw [e]
    cases L
    simp only at l1 l2 l3
    subst l1 l2 l3
    rfl
  · simp only at l5
    rw [hz, hs2, List.take_length] at l5
    exact l5

theorem used_mod (maxv : Nat) (px : List UInt8) (k : Nat) : (usedByte (8 * sampleSize maxv) px k).toNat = sample maxv px k % 256 := by
  rw [usedByte, sampleSize, sample]
  by_cases h : maxv < 256
  · rw [if_pos h, if_pos h, if_neg (by omega)]
    exact (Nat.mod_eq_of_lt (UInt8.toNat_lt _)).symm
  · rw [if_neg h, if_neg h, if_pos (by omega)]
    have := UInt8.toNat_lt (px.getD (2 * k + 1) 0)
    omega

theorem sample_lt (px : List UInt8) (k : Nat) : sample 255 px k < 256 := by
  rw [sample, if_pos (by omega)]
  exact UInt8.toNat_lt _

/-- C147: every valid PGM or PPM file with samples of 0 to 255 is loaded with its size and exactly its colours, opaque; whatever white
space and comments its header has, and however the numbers are written. -/
theorem load_pnm_exact {feof : Ctx → Bool} (hf : FeofHonest feof) {file px : List UInt8} {n w h : Nat} (H : IsPnm file n w h 255 px)
    (hw : w ≤ 16777216) (hh : h ≤ 16777216) (hs : w * h < 536870912) (hd : px.length ≤ 2147483647) (pm : PngMem) (mem : JpegMem) (cm : Nat → Bool)
    {nm : PnmMem} (hm : PnmMem.Enough nm) (other : CM (Option Model.Loaded)) :
    ∃ out, stbi_load_pnm pm mem cm nm feof other file = .ok (some ⟨w, h, n, out⟩) ∧ out.length = w * h * 4 ∧
      ∀ p, p < w * h → (∀ c, c < 3 → ∃ b : UInt8, out[p * 4 + c]? = some (some b) ∧ b.toNat = channel n 255 px p c) ∧ out[p * 4 + 3]? = some (some 255) := by
  obtain ⟨out, h1, h2, h3⟩ := load_pnm_bytes hf H hw hh hs hd pm mem cm hm other
  refine ⟨out, h1, h2, fun p hp => ⟨fun c hc => ⟨_, (h3 p hp).1 c hc, ?_⟩, (h3 p hp).2⟩⟩
  exact (used_mod 255 px _).trans (Nat.mod_eq_of_lt (sample_lt px _))

/-- C148, as far as it holds: in every valid file the levels shown are the samples modulo 256, which are the levels nearest to the samples
only if the samples go up to 255.  What is missing: the nearest levels for other files (`load_pnm_dark`, `load_pnm_low_bytes`). -/
theorem load_pnm_levels_partial {feof : Ctx → Bool} (hf : FeofHonest feof) {file px : List UInt8} {n w h maxv : Nat} (H : IsPnm file n w h maxv px)
    (hw : w ≤ 16777216) (hh : h ≤ 16777216) (hs : w * h < 536870912) (hd : px.length ≤ 2147483647) (pm : PngMem) (mem : JpegMem) (cm : Nat → Bool)
    {nm : PnmMem} (hm : PnmMem.Enough nm) (other : CM (Option Model.Loaded)) :
    ∃ out, stbi_load_pnm pm mem cm nm feof other file = .ok (some ⟨w, h, n, out⟩) ∧ out.length = w * h * 4 ∧
      ∀ p, p < w * h → (∀ c, c < 3 → ∃ b : UInt8, out[p * 4 + c]? = some (some b) ∧ b.toNat = channel n maxv px p c % 256 ∧
        (maxv = 255 → Nearest maxv (channel n maxv px p c) b)) ∧ out[p * 4 + 3]? = some (some 255) := by
  obtain ⟨out, h1, h2, h3⟩ := load_pnm_bytes hf H hw hh hs hd pm mem cm hm other
  refine ⟨out, h1, h2, fun p hp => ⟨fun c hc => ⟨_, (h3 p hp).1 c hc, ?_, ?_⟩, (h3 p hp).2⟩⟩
  · exact used_mod maxv px _
  · rintro rfl
    have : (usedByte (8 * sampleSize 255) px (if n = 3 then p * 3 + c else p)).toNat = channel n 255 px p c := (used_mod 255 px _).trans (Nat.mod_eq_of_lt (sample_lt px _))
    show Nearest 255 _ (usedByte (8 * sampleSize 255) px (if n = 3 then p * 3 + c else p))
    rw [Nearest, this]
    omega

/-- C148: a file whose samples go up to less than 255 is loaded too dark: a white pixel gets the level `maxv`, which is never the nearest
level. -/
theorem load_pnm_dark {feof : Ctx → Bool} (hf : FeofHonest feof) {file px : List UInt8} {n w h maxv : Nat} (H : IsPnm file n w h maxv px) (h255 : maxv < 255)
    (hw : w ≤ 16777216) (hh : h ≤ 16777216) (hs : w * h < 536870912) (hd : px.length ≤ 2147483647) (pm : PngMem) (mem : JpegMem) (cm : Nat → Bool)
    {nm : PnmMem} (hm : PnmMem.Enough nm) (other : CM (Option Model.Loaded)) {p c : Nat} (hp : p < w * h) (hc : c < 3) (hwhite : channel n maxv px p c = maxv) :
    ∃ out b, stbi_load_pnm pm mem cm nm feof other file = .ok (some ⟨w, h, n, out⟩) ∧ out[p * 4 + c]? = some (some b) ∧ b.toNat = maxv ∧ Nearest maxv maxv 255 ∧
      ¬ Nearest maxv maxv b := by
  obtain ⟨out, h1, _, h3⟩ := load_pnm_levels_partial hf H hw hh hs hd pm mem cm hm other
  obtain ⟨b, b1, b2, _⟩ := (h3 p hp).1 c hc
  rw [hwhite, Nat.mod_eq_of_lt (by omega)] at b2
  have e : (255 : UInt8).toNat = 255 := rfl
  have hmx := H.maximum
  refine ⟨out, b, h1, b1, b2, ?_, ?_⟩
  · rw [Nearest, e]
    constructor
    · rw [show 2 * maxv * 255 = 2 * 255 * maxv by ring]
      omega
    · rw [show 2 * maxv * 255 = 2 * 255 * maxv by ring]
      omega
  · rw [Nearest, b2]
    rintro ⟨h, _⟩
    have h2 : 2 * maxv * 255 = maxv * 510 := by ring
    have h3 : 2 * maxv * maxv + maxv = maxv * (2 * maxv + 1) := by ring
    rw [h2, h3] at h
    have := Nat.le_of_mul_le_mul_left h (by omega)
    omega

/-- C148: a file with 16 bits shows the less significant byte of each sample: samples 255 of 65535, almost black, are shown as white. -/
theorem load_pnm_low_bytes {feof : Ctx → Bool} (hf : FeofHonest feof) {file px : List UInt8} {n w h : Nat} (H : IsPnm file n w h 65535 px)
    (hw : w ≤ 16777216) (hh : h ≤ 16777216) (hs : w * h < 536870912) (hd : px.length ≤ 2147483647) (pm : PngMem) (mem : JpegMem) (cm : Nat → Bool)
    {nm : PnmMem} (hm : PnmMem.Enough nm) (other : CM (Option Model.Loaded)) {p c : Nat} (hp : p < w * h) (hc : c < 3) (hdark : channel n 65535 px p c = 255) :
    ∃ out, stbi_load_pnm pm mem cm nm feof other file = .ok (some ⟨w, h, n, out⟩) ∧ out[p * 4 + c]? = some (some 255) ∧ Nearest 65535 255 1 ∧
      ¬ Nearest 65535 255 255 := by
  obtain ⟨out, h1, _, h3⟩ := load_pnm_levels_partial hf H hw hh hs hd pm mem cm hm other
  obtain ⟨b, b1, b2, _⟩ := (h3 p hp).1 c hc
  rw [hdark] at b2
  have : b = 255 := by
    apply UInt8.toNat_inj.mp
    rw [b2]
    rfl
  rw [this] at b1
  exact ⟨out, h1, b1, by unfold Nearest; decide, by unfold Nearest; decide⟩

/-! ### Any file -/

/-- An image with all its bytes. -/
structure FullImage (L : Model.Loaded) : Prop where
  width : 1 ≤ L.x ∧ L.x ≤ 16777216
  height : 1 ≤ L.y ∧ L.y ≤ 16777216
  channels : L.n = 1 ∨ L.n = 3
  size : L.data.length = L.x * L.y * 4
  written : ∀ i < L.x * L.y * 4, ∃ v, L.data[i]? = some (some v)

theorem pnm_load_out {feof : Ctx → Bool} (hf : FeofSound feof) {file : List UInt8} (h0 : file ≠ []) (nm : PnmMem) :
    Outc (fun e => e = .oobWrite ∧ 1073741824 ≤ file.length) (pnm_load nm feof (start_file file)) fun r => ∀ L, r = some L → FullImage L := by
  rw [pnm_load]
  obtain ⟨s1, _, s3⟩ := start_next file
  rw [if_neg h0, List.append_nil] at s3
  have hinfo : Outc (fun e => e = Fault.oobWrite ∧ 1073741824 ≤ file.length) (pnm_info feof (start_file file)) fun r => ∀ h, r = some h →
      (h.bits = 8 ∨ h.bits = 16) ∧ 1 ≤ h.x ∧ 1 ≤ h.y ∧ (h.n = 1 ∨ h.n = 3) ∧ CtxOk h.s ∧ (Ctx.rem h.s).length ≤ file.length := by
    rw [pnm_info]
    split
    · have l1 := get8_later s1
      have l2 := get8_later l1.ok
      refine (pnmHeader_out hf l2.ok).mono fun r hr h e => ?_
      obtain ⟨a, b, c, d, l3⟩ := hr h e
      refine ⟨a, b, c, ?_, l3.ok, ?_⟩
      · rw [d]
        split <;> simp
      · have := ((l1.trans l2).trans l3).rem
        rwa [s3] at this
    · exact Outc.pure fun h e => (by cases e)
  refine Outc.bind hinfo fun r hr => ?_
  cases r with
  | none => exact Outc.pure fun L e => (by cases e)
  | some h =>
    obtain ⟨a, b, c, d, e, f⟩ := hr h rfl
    refine ((pnmPixels_out (m := nm) e a d).monoE fun e he => ⟨he.1, by have := he.2.2.2; omega⟩).mono fun q hq L hL => ?_
    obtain ⟨k1, k2, k3, k4, k5, k6, k7⟩ := hq L hL
    refine ⟨by omega, by omega, by omega, by rw [k6, k3, k4], fun i hi => ?_⟩
    rw [k3, k4] at hi
    have hp := k7 (i / 4) (by omega)
    by_cases h3 : i % 4 = 3
    · have := hp.2
      rw [show i / 4 * 4 + 3 = i by omega] at this
      exact ⟨_, this⟩
    · have := hp.1 (i % 4) (by omega)
      rw [show i / 4 * 4 + i % 4 = i by omega] at this
      exact ⟨_, this⟩

/-- C149, as far as it holds: whatever follows `P5` or `P6` in a file of less than 1 GiB, the file is refused or gives a whole image;
nothing outside the buffers is read or written, no number overflows, and loading ends.  What is missing: longer files, see
`pnm_grey16_overflow`. -/
theorem pnm_any_file_partial {feof : Ctx → Bool} (hf : FeofSound feof) {magic : UInt8} (hmg : magic = 53 ∨ magic = 54) {rest : List UInt8}
    (hlen : rest.length + 2 < 1073741824) (pm : PngMem) (mem : JpegMem) (cm : Nat → Bool) (nm : PnmMem) (other : CM (Option Model.Loaded)) :
    stbi_load_pnm pm mem cm nm feof other (80 :: magic :: rest) = .ok none ∨
    ∃ L, stbi_load_pnm pm mem cm nm feof other (80 :: magic :: rest) = .ok (some L) ∧ FullImage L := by
  have u0 := unread_start (file := 80 :: magic :: rest) (by simp)
  obtain ⟨c0, u1⟩ := u0.get
  obtain ⟨c1, u2⟩ := u1.get
  have ht : pnm_test (start_file (80 :: magic :: rest)) = true := by
    rw [pnm_test, c0, c1]
    rcases hmg with rfl | rfl <;> rfl
  rw [load_main_pnm ht rfl]
  have := pnm_load_out hf (file := 80 :: magic :: rest) (by simp) nm
  cases hr : pnm_load nm feof (start_file (80 :: magic :: rest)) with
  | error e =>
    rw [hr] at this
    have := this.2
    simp only [List.length_cons] at this
    omega
  | ok r =>
    rw [hr] at this
    cases r with
    | none => exact Or.inl rfl
    | some L => exact Or.inr ⟨L, rfl, this L rfl⟩

/-- C149: the missing part is needed.  Every valid PGM file of 2^29 to 2^30 - 1 pixels with 16 bits makes the loader write behind the end
of the memory it allocated, if it gets that memory. -/
theorem pnm_grey16_overflow {feof : Ctx → Bool} (hf : FeofHonest feof) {file px : List UInt8} {w h maxv : Nat} (H : IsPnm file 1 w h maxv px) (h16 : 255 < maxv)
    (hw : w ≤ 16777216) (hh : h ≤ 16777216) (hs : 536870912 ≤ w * h) (hd : px.length ≤ 2147483647) (pm : PngMem) (mem : JpegMem) (cm : Nat → Bool)
    {nm : PnmMem} (hm : PnmMem.Enough nm) (other : CM (Option Model.Loaded)) :
    stbi_load_pnm pm mem cm nm feof other file = .error .oobWrite := by
  obtain ⟨ht, r, hr, s, rfl, hs1, hs2⟩ := pnm_header_ok hf H hw hh
  have hz := H.size
  rw [sampleSize, if_neg (by omega), Nat.one_mul] at hz
  rw [load_main_pnm ht (pnm_head80 H), pnm_load, hr, ok_bind, sampleSize, if_neg (by omega)]
  show pnmPixels nm ⟨16, w, h, 1, s⟩ = _
  have l2 := Nat.le_mul_of_pos_right w H.height
  rw [pnmPixels, if_neg (by show ¬ 16777216 < h; omega), if_neg (by show ¬ 16777216 < w; omega), if_neg (by
    show ¬ (!mad4ok 1 w h (16 / 8) 0) = true
    rw [mad4ok, Nat.one_mul, mul2ok_iff.mpr (by omega), mul2ok_iff.mpr (by omega), mul2ok_iff.mpr (by omega), (addok_iff (by omega)).mpr (by omega)]
    decide), hm.1, if_neg (by decide)]
  rcases getn_next hs1 (1 * w * h * (16 / 8)) with ⟨g1, g2, g3⟩ | ⟨g1, g2⟩
  · show (match (getn s (1 * w * h * (16 / 8))).1 with
      | none => pure none
      | some d => pnmConvert nm ⟨16, w, h, 1, s⟩ d) = _
    rw [g2]
    refine pnmConvert_over rfl rfl ?_ hs (by show w * h < _; omega) hm.2.1
    show _ = 1 * w * h * 2
    rw [List.length_take, hs2, hz, Nat.one_mul]
    omega
  · rw [hs2, hz, Nat.one_mul] at g1
    omega

/-! ### Cases -/

def allPnm : PnmMem := ⟨true, true, true⟩

/-- `feof` for streams without errors: the file was read to its end. -/
def atEnd (s : Ctx) : Bool := decide (s.file.length ≤ s.fpos)

theorem atEnd_honest : FeofHonest atEnd := fun _ h => of_decide_eq_true h

/-- A PGM file of two pixels with a comment: `P5#c`, line feed, `2 1`, line feed, `255`, line feed, 7 and 200. -/
def twoGrey : List UInt8 := [80, 53, 35, 99, 10, 50, 32, 49, 10, 50, 53, 53, 10, 7, 200]

theorem twoGrey_isPnm : IsPnm twoGrey 1 2 1 255 [7, 200] := by
  refine ⟨⟨53, [35, 99, 10], [50], [32], [49], [10], [50, 53, 53], 10, rfl, Or.inr (by decide), ?_, ?_, ?_, by decide, by decide, by decide, ?_, ?_, ?_, Or.inl ⟨rfl, rfl⟩⟩,
    by decide, by decide, by decide, rfl⟩
  · exact .comment (text := [99]) (nl := 10) (l := []) (by decide) (Or.inl rfl) .none
  · exact .white (Or.inl rfl) .none
  · exact .white (Or.inr (by decide)) .none
  · exact ⟨by decide, by decide, rfl⟩
  · exact ⟨by decide, by decide, rfl⟩
  · exact ⟨by decide, by decide, rfl⟩

/-- The pixels of a result. -/
def dataOf : CM (Option Model.Loaded) → Option (Nat × Nat × Cells UInt8)
  | .ok (some L) => some (L.x, L.y, L.data)
  | _ => none

example : dataOf (stbi_load_pnm allPng allJpeg allCoef allPnm atEnd (.ok none) twoGrey) = some (2, 1, [7, 7, 7, 255, 200, 200, 200, 255].map some) := by decide +kernel

/-- A PPM file of one pixel with samples up to 15, white. -/
def dimWhite : List UInt8 := [80, 54, 10, 49, 32, 49, 32, 49, 53, 10, 15, 15, 15]

theorem dimWhite_isPnm : IsPnm dimWhite 3 1 1 15 [15, 15, 15] := by
  refine ⟨⟨54, [10], [49], [32], [49], [32], [49, 53], 10, rfl, Or.inr (by decide), ?_, ?_, ?_, by decide, by decide, by decide, ?_, ?_, ?_, Or.inr ⟨rfl, rfl⟩⟩,
    by decide, by decide, by decide, rfl⟩
  · exact .white (Or.inr (by decide)) .none
  · exact .white (Or.inl rfl) .none
  · exact .white (Or.inl rfl) .none
  · exact ⟨by decide, by decide, rfl⟩
  · exact ⟨by decide, by decide, rfl⟩
  · exact ⟨by decide, by decide, rfl⟩

/-- The white pixel is loaded as almost black. -/
example : dataOf (stbi_load_pnm allPng allJpeg allCoef allPnm atEnd (.ok none) dimWhite) = some (1, 1, [15, 15, 15, 255].map some) := by decide +kernel

/-- A PGM file of one pixel with 16 bits, 255 of 65535. -/
def darkGrey16 : List UInt8 := [80, 53, 10, 49, 32, 49, 32, 54, 53, 53, 51, 53, 10, 0, 255]

theorem darkGrey16_isPnm : IsPnm darkGrey16 1 1 1 65535 [0, 255] := by
  refine ⟨⟨53, [10], [49], [32], [49], [32], [54, 53, 53, 51, 53], 10, rfl, Or.inr (by decide), ?_, ?_, ?_, by decide, by decide, by decide, ?_, ?_, ?_, Or.inl ⟨rfl, rfl⟩⟩,
    by decide, by decide, by decide, rfl⟩
  · exact .white (Or.inr (by decide)) .none
  · exact .white (Or.inl rfl) .none
  · exact .white (Or.inl rfl) .none
  · exact ⟨by decide, by decide, rfl⟩
  · exact ⟨by decide, by decide, rfl⟩
  · exact ⟨by decide, by decide, rfl⟩

example : dataOf (stbi_load_pnm allPng allJpeg allCoef allPnm atEnd (.ok none) darkGrey16) = some (1, 1, [255, 255, 255, 255].map some) := by decide +kernel

/-- A file that gives 9999999999 for the largest sample is not valid, but is loaded; the line feed is taken for the pixel. -/
theorem pnm_bad_maximum : dataOf (stbi_load_pnm allPng allJpeg allCoef allPnm atEnd (.ok none)
    [80, 53, 10, 49, 32, 49, 32, 57, 57, 57, 57, 57, 57, 57, 57, 57, 57, 10, 0]) = some (1, 1, [10, 10, 10, 255].map some) := by decide +kernel

/-- Large images exist: a header for 32768 × 16384 pixels with 16 bits. -/
theorem largeGrey16_isPnm : IsPnm ([80, 53] ++ [10] ++ [51, 50, 55, 54, 56] ++ [32] ++ [49, 54, 51, 56, 52] ++ [32] ++ [54, 53, 53, 51, 53] ++ [10] ++
    List.replicate 1073741824 (0 : UInt8)) 1 32768 16384 65535 (List.replicate 1073741824 0) := by
  refine ⟨⟨53, [10], [51, 50, 55, 54, 56], [32], [49, 54, 51, 56, 52], [32], [54, 53, 53, 51, 53], 10, rfl, Or.inr (by decide), ?_, ?_, ?_, by decide, by decide, by decide, ?_, ?_, ?_,
    Or.inl ⟨rfl, rfl⟩⟩, by decide, by decide, by decide, by rw [List.length_replicate]; rfl⟩
  · exact .white (Or.inr (by decide)) .none
  · exact .white (Or.inl rfl) .none
  · exact .white (Or.inl rfl) .none
  · exact ⟨by decide, by decide, rfl⟩
  · exact ⟨by decide, by decide, rfl⟩
  · exact ⟨by decide, by decide, rfl⟩

end FlatCV.Props
