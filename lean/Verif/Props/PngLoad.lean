/-
Properties of the PNG decoder (C124-C126).
-/
import Verif.Lemmas.PngOutcome
import Verif.Props.Png

namespace FlatCV.Props
open Model Png

variable {m : PngMem} {other : CM (Option Loaded)} {file : List UInt8}

/-- The number in the four bytes from `k` on, the most significant byte first. -/
def be32At (file : List UInt8) (k : Nat) : Nat :=
  (file.getD k 0).toNat * 16777216 + (file.getD (k + 1) 0).toNat * 65536 + (file.getD (k + 2) 0).toNat * 256 + (file.getD (k + 3) 0).toNat

/-- The file starts as PNG files do. -/
def Signed (file : List UInt8) : Prop := file.take 8 = [137, 80, 78, 71, 13, 10, 26, 10]

/-- The first chunk is CgBI, as Apple's tools write it. -/
def Apple (file : List UInt8) : Prop := be32At file 12 = 0x43674249

theorem not_apple (h : ¬ Apple file) : num32 (file.drop 12) ≠ pngType 'C' 'g' 'B' 'I' := by
  rw [num32_drop]
  exact h

/-! ### Any file -/

/-- C124: whatever follows the signature and whichever allocations fail, loading the file gives up or yields an image of at most
16777216 × 16777216 pixels, with the size that the file states and with four bytes for each pixel, all of them written.  What is missing:
it may instead read palette entries that were never written if the image has indexed colours, and it may write behind the end of the
allocated memory if the image is grey with 16 bits and has at least 2^29 pixels; the examples below show that both happen. -/
theorem load_png_outcome_partial (h : Signed file) :
    match stbi_load m other file with
    | .ok none => True
    | .ok (some L) => (¬ Apple file → L.x = be32At file 16 ∧ L.y = be32At file 20) ∧ 0 < L.x ∧ L.x ≤ 16777216 ∧ 0 < L.y ∧ L.y ≤ 16777216 ∧ 1 ≤ L.n ∧ L.n ≤ 4 ∧
        ∃ px : List UInt8, L.data = px.map some ∧ px.length = L.x * L.y * 4
    | .error .uninitRead => ¬ Apple file → file.getD 25 0 = 3
    | .error .oobWrite => ¬ Apple file → file.getD 24 0 = 16 ∧ file.getD 25 0 = 0 ∧ 536870912 ≤ be32At file 16 * be32At file 20
    | .error _ => False := by
  have h1 := load_outc (m := m) (other := other) h
  have hb : ∀ b : UInt8, ∀ k : Nat, k = b.toNat → b = UInt8.ofNat k := fun b k e => by rw [e, UInt8.ofNat_toNat]
  cases e : stbi_load m other file with
  | error f =>
    rw [e] at h1
    rcases h1 with ⟨rfl, x, y, d, H⟩ | ⟨rfl, x, y, h29, H⟩
    · exact fun ha => hb _ _ (H (not_apple ha)).2.2.2
    · intro ha
      obtain ⟨rfl, rfl, e3, e4⟩ := H (not_apple ha)
      rw [num32_drop, num32_drop] at h29
      exact ⟨hb _ _ e3, hb _ _ e4, h29⟩
  | ok r =>
    rw [e] at h1
    cases r with
    | none => trivial
    | some L =>
      obtain ⟨H, d, c, F⟩ := h1 L rfl
      refine ⟨fun ha => ?_, H.x0, H.x1, H.y0, H.y1, H.n0, H.n4, L.data.map (fun o => o.getD 0), ?_, by rw [List.length_map, H.len]⟩
      · have := F (not_apple ha)
        rw [num32_drop, num32_drop] at this
        exact ⟨this.1, this.2.1⟩
      · apply List.ext_getElem?
        intro q
        rw [List.getElem?_map, List.getElem?_map]
        by_cases hq : q < L.data.length
        · obtain ⟨b, hb⟩ := H.init q hq
          rw [hb]
          rfl
        · rw [List.getElem?_eq_none (by omega)]
          rfl

/-- C124: files with direct colours of 8 bits, or with colours of 16 bits and fewer than 2^29 pixels, never cause a fault. -/
theorem load_png_safe (h : Signed file) (ha : ¬ Apple file) (h3 : file.getD 25 0 ≠ 3)
    (hg : file.getD 24 0 = 16 → file.getD 25 0 = 0 → be32At file 16 * be32At file 20 < 536870912) : ∃ r, stbi_load m other file = .ok r := by
  have h1 := load_png_outcome_partial (m := m) (other := other) h
  cases e : stbi_load m other file with
  | ok r => exact ⟨r, rfl⟩
  | error f =>
    rw [e] at h1
    cases f with
    | uninitRead => exact absurd (h1 ha) h3
    | oobWrite =>
      obtain ⟨a, b, c⟩ := h1 ha
      have := hg a b
      omega
    | _ => exact h1.elim

/-- C124: files with a width or height of more than 16777216 are rejected. -/
theorem load_png_too_large (h : Signed file) (ha : ¬ Apple file) (hl : 16777216 < be32At file 16 ∨ 16777216 < be32At file 20) :
    stbi_load m other file = .ok none :=
  load_too_large h (not_apple ha) (by rw [num32_drop, num32_drop]; exact hl)

/-- No allocation fails. -/
def plentyPng : PngMem := ⟨fun _ => true, true, fun _ => true, fun _ => true, fun _ => true, true, true, true, true⟩

theorem plentyPng_good : MemGood plentyPng := ⟨fun _ => rfl, rfl, fun _ => rfl, fun _ => rfl, fun _ => rfl, rfl, rfl, rfl, rfl⟩

/-- One pixel with indexed colour 1; the palette has one entry only. -/
def badIndex : List UInt8 :=
  [137, 80, 78, 71, 13, 10, 26, 10] ++ pngChunk (tag "IHDR") [0, 0, 0, 1, 0, 0, 0, 1, 8, 3, 0, 0, 0] ++ pngChunk (tag "PLTE") [10, 20, 30] ++
    pngChunk (tag "IDAT") [0x78, 1, 1, 2, 0, 0xfd, 0xff, 0, 1, 0, 3, 0, 2] ++ pngChunk (tag "IEND") []

def isUninit : CM (Option Loaded) → Bool
  | .error .uninitRead => true
  | _ => false

theorem of_isUninit {r : CM (Option Loaded)} (h : isUninit r = true) : r = .error .uninitRead := by
  unfold isUninit at h
  split at h
  · rfl
  · cases h

/-- C124: the missing part is needed.  A file of 85 bytes makes the decoder use a palette entry that was never written. -/
theorem load_png_uninit_palette : Signed badIndex ∧ ¬ Apple badIndex ∧ stbi_load plentyPng other badIndex = .error .uninitRead := by
  have h : stbi_load plentyPng other badIndex = stbi_load plentyPng (.ok none) badIndex := by
    have e : (check_png_header (start_file badIndex)).1 = true := by decide +kernel
    rw [stbi_load, stbi_load, if_pos e, if_pos e]
  have h2 : isUninit (stbi_load plentyPng (.ok none) badIndex) = true := by decide +kernel
  refine ⟨by unfold Signed; decide +kernel, by unfold Apple; decide +kernel, ?_⟩
  rw [h]
  exact of_isUninit h2

/-- C124: the missing part is needed.  A valid PNG file of 32768 × 16384 grey pixels with 16 bits makes the decoder write behind the end
of the memory it allocated, whenever all allocations succeed. -/
theorem load_png_grey16_overflow : ∃ file p s, IsPng file p s ∧ p.hd.w = 32768 ∧ p.hd.h = 16384 ∧
    ∀ m other, MemGood m → stbi_load m other file = .error .oobWrite := by
  obtain ⟨s, P⟩ := black_isPng (w := 32768) (h := 16384) (k := 65537) (n := 16384) (cut := 600000000) (by omega) (by omega) (by omega) (by omega) (by omega) (by omega)
    (by omega) (by omega)
  refine ⟨_, _, s, P, rfl, rfl, fun m other M => ?_⟩
  have hz := zeroStream_length 65537 16384
  have hfl := black_flat 32768 16384 65537 16384 600000000
  refine load_grey16_overflow P rfl rfl rfl (by show 32768 ≤ 16777216; omega) (by show 16384 ≤ 16777216; omega) (by show 536870912 ≤ 32768 * 16384; omega)
    (by show 2 * (32768 * 16384) + 2 * 32768 + 16384 ≤ 2147483647; omega) ?_ (by rw [hfl]; omega) ?_ M
  · intro l hl
    rw [black_idat] at hl
    rcases List.mem_cons.mp hl with rfl | hl
    · rw [List.length_take]
      omega
    · rw [List.mem_singleton.mp hl, List.length_drop]
      omega
  · intro raw hr
    rw [hfl, zlibRead_decode (zero_decode (by omega))] at hr
    rw [← Option.some.inj hr, List.length_replicate]
    omega

/-! ### Valid files -/

/-- C125: every valid PNG file within the limits below, of any colour type and depth, with or without palette, transparent colours and
interlacing, is loaded with its size and with the right red, green, blue and alpha of every pixel. -/
theorem load_png_correct {p : Parts} {s : Samples} (P : IsPng file p s) (hw : p.hd.w ≤ 16777216) (hh : p.hd.h ≤ 16777216)
    (ha : p.hd.w * p.hd.h ≤ 200000000) (hi : ∀ l ∈ p.idat, l.length ≤ 1073741824) (ht : p.idat.flatten.length < 2147483648)
    (hr : ∀ raw, zlibDecode p.idat.flatten = some raw → raw.length < 2147483648) (M : MemGood m) :
    stbi_load m other file = .ok (some ⟨p.hd.w, p.hd.h, p.channels, (p.image s).map some⟩) :=
  load_valid P hw hh ha hi ht hr M

/-- 3 × 2 pixels, interlaced, indices of two bits; the second palette entry is half transparent, the others are opaque. -/
def smallPalette : Parts :=
  ⟨⟨3, 2, 2, 3, 1⟩, [(tag "gAMA", [0, 0, 177, 143])], some [10, 20, 30, 40, 50, 60, 70, 80, 90], [], some [255, 128], [],
    [[0x78, 1, 1, 8, 0, 0xf7], [0xff, 0, 0, 0, 0x80, 0, 0x40, 0, 0x24, 3, 0x6c, 0, 0xe5]], [(tag "tEXt", [65, 0, 66])]⟩

def smallRaw : List UInt8 := [0, 0, 0, 0x80, 0, 0x40, 0, 0x24]

def smallSamples : Samples := (readSamples smallPalette.hd smallRaw).getD fun _ _ _ => 0

theorem smallPalette_data : zlibDecode smallPalette.idat.flatten = some smallRaw := zlibRead_decode (by decide +kernel)

theorem smallPalette_isPng : IsPng smallPalette.bytes smallPalette smallSamples := by
  have hz := smallPalette_data
  have e : readSamples smallPalette.hd smallRaw = some smallSamples := by
    have : (readSamples smallPalette.hd smallRaw).isSome = true := by decide +kernel
    obtain ⟨s, hs⟩ := Option.isSome_iff_exists.mp this
    rw [smallSamples, hs]
    rfl
  have ha : ∀ c, c ∈ [(tag "gAMA", [(0 : UInt8), 0, 177, 143])] → Ancillary c := by
    intro c hc
    rw [List.mem_singleton.mp hc]
    unfold Ancillary
    decide +kernel
  have ha' : ∀ c, c ∈ [(tag "tEXt", [(65 : UInt8), 0, 66])] → Ancillary c := by
    intro c hc
    rw [List.mem_singleton.mp hc]
    unfold Ancillary
    decide +kernel
  refine ⟨rfl, ⟨⟨by decide, by decide, by decide, by decide, by decide, by decide⟩, ha, ?_, ?_, ha', ?_, ?_, ?_⟩, ⟨smallRaw, hz, e⟩, ?_⟩
  · simp [smallPalette]
  · simp [smallPalette]
  · refine ⟨fun l hl => ?_, fun _ e => by cases e⟩
    cases hl
    decide
  · intro l hl
    cases hl
    exact Or.inr (Or.inr (by decide))
  · intro l hl
    have hl : l ∈ [[(0x78 : UInt8), 1, 1, 8, 0, 0xf7], [0xff, 0, 0, 0, 0x80, 0, 0x40, 0, 0x24, 3, 0x6c, 0, 0xe5]] := hl
    rcases List.mem_cons.mp hl with rfl | hl
    · decide
    · rw [List.mem_singleton.mp hl]
      decide
  · have : ∀ x, x < 3 → ∀ y, y < 2 → 3 * smallSamples x y 0 < 9 := by decide +kernel
    exact fun _ x y hx hy => this x hx y hy

/-- Such a file and what it is loaded as. -/
example (other : CM (Option Loaded)) : stbi_load plentyPng other smallPalette.bytes =
    .ok (some ⟨3, 2, 4, ([10, 20, 30, 255, 40, 50, 60, 128, 70, 80, 90, 255, 10, 20, 30, 255, 70, 80, 90, 255, 40, 50, 60, 128] : List UInt8).map some⟩) := by
  rw [load_png_correct smallPalette_isPng (by decide) (by decide) (by decide) (by decide) (by decide) ?_ plentyPng_good]
  · have e : smallPalette.image smallSamples = [10, 20, 30, 255, 40, 50, 60, 128, 70, 80, 90, 255, 10, 20, 30, 255, 70, 80, 90, 255, 40, 50, 60, 128] := by
      decide +kernel
    rw [e]
    rfl
  · intro raw hr
    rw [smallPalette_data] at hr
    rw [← Option.some.inj hr]
    decide

/-! ### Files that the library wrote -/

/-- C126: an image that the PNG writer writes is loaded again, with its size, its number of channels and its pixels; grey becomes equal red,
green and blue, and images without alpha become opaque. -/
theorem png_write_load {x y n stride : Nat} {px : List UInt8} {hp : Heap} (hf : Fits x y n) (hs : stride = 0 ∨ stride = x * n) (hpx : px.length = x * y * n)
    (hm : Plenty hp) (hy : y ≤ 16777216) (ha : x * y ≤ 200000000) (M : MemGood m) :
    ∃ l h, stbi_write_png true x y n px stride hp = .ok ((1, some l), h) ∧
      stbi_load m other l = .ok (some ⟨x, y, n, (rgbaBytes (imagePixel ⟨x, y, n, px⟩) (x * y)).map some⟩) := by
  obtain ⟨l, h1, h2, h3⟩ := png_written hf hs hpx hm
  have hx : x < 16777216 := lt_of_le_of_lt (Nat.le_mul_of_pos_right x hf.n_pos) hf.row
  obtain ⟨p, s, P, e1, e2, e3, e4, h5, h6, h7⟩ := readPng_isPng h2 (by omega) (by show x < _; omega) (by show y < _; omega)
  have e1 : p.hd.w = x := e1
  have e2 : p.hd.h = y := e2
  have e3 : p.channels = n := e3
  have h := load_png_correct (m := m) (other := other) P (by omega) (by omega) (by rw [e1, e2]; exact ha) (fun l hl => (h5 l hl).le) (by omega) (fun raw hr => by
    have := h7 raw hr
    have h8 : y * (x * n + 1) ≤ 600000000 := hf.all
    have this : raw.length = y * (x * n + 1) := this
    omega) M
  rw [e1, e2, e3, e4] at h
  exact ⟨l, _, h1, h⟩

theorem range_flat (px : List UInt8) : ∀ k, px.length = k * 4 →
    ((List.range k).flatMap fun i => [px.getD (i * 4 + 0) 0, px.getD (i * 4 + 1) 0, px.getD (i * 4 + 2) 0, px.getD (i * 4 + 3) 0]) = px := by
  intro k
  induction k generalizing px with
  | zero =>
    intro h
    have h : px.length = 0 := by omega
    rw [List.length_eq_zero_iff.mp h]
    rfl
  | succ k ih =>
    intro h
    obtain ⟨a, b, c, d, l, rfl⟩ : ∃ a b c d l, px = a :: b :: c :: d :: l := by
      match px, h with
      | a :: b :: c :: d :: l, _ => exact ⟨a, b, c, d, l, rfl⟩
      | [], h | [_], h | [_, _], h | [_, _, _], h =>
        simp only [List.length_cons, List.length_nil] at h
        omega
    simp only [List.length_cons] at h
    rw [List.range_succ_eq_map, List.flatMap_cons, List.flatMap_map]
    have e := ih l (by omega)
    conv_rhs => rw [← e]
    simp only [Nat.succ_eq_add_one, Nat.add_mul, Nat.one_mul]
    rfl

theorem rgba_same {x y : Nat} {px : List UInt8} (hpx : px.length = x * y * 4) : rgbaBytes (imagePixel ⟨x, y, 4, px⟩) (x * y) = px := by
  conv_rhs => rw [← range_flat px _ hpx]
  rw [rgbaBytes]
  simp only [imagePixel, UInt8.ofNat_toNat]

/-- C126: an image with four channels is loaded byte for byte. -/
theorem png_write_load_rgba {x y stride : Nat} {px : List UInt8} {hp : Heap} (hf : Fits x y 4) (hs : stride = 0 ∨ stride = x * 4) (hpx : px.length = x * y * 4)
    (hm : Plenty hp) (hy : y ≤ 16777216) (ha : x * y ≤ 200000000) (M : MemGood m) :
    ∃ l h, stbi_write_png true x y 4 px stride hp = .ok ((1, some l), h) ∧ stbi_load m other l = .ok (some ⟨x, y, 4, px.map some⟩) := by
  obtain ⟨l, h, h1, h2⟩ := png_write_load (m := m) (other := other) hf hs hpx hm hy ha M
  refine ⟨l, h, h1, ?_⟩
  rw [h2, rgba_same hpx]

/-- A 2 × 1 image with alpha survives. -/
example : ∃ l h, stbi_write_png true 2 1 4 [1, 2, 3, 255, 200, 100, 50, 0] 8 ⟨7, [3], fun _ => false⟩ = .ok ((1, some l), h) ∧
    stbi_load plentyPng (.ok none) l = .ok (some ⟨2, 1, 4, ([1, 2, 3, 255, 200, 100, 50, 0] : List UInt8).map some⟩) :=
  png_write_load_rgba ⟨by decide, by decide, by decide, by decide, by decide, by decide⟩ (Or.inr rfl) rfl (fun _ _ => rfl) (by decide) (by decide) plentyPng_good

theorem header_at {p : Parts} (hw : p.hd.w < 4294967296) (hh : p.hd.h < 4294967296) :
    Signed p.bytes ∧ ¬ Apple p.bytes ∧ be32At p.bytes 16 = p.hd.w ∧ be32At p.bytes 20 = p.hd.h := by
  have hb : ∃ rest, p.bytes = [137, 80, 78, 71, 13, 10, 26, 10, 0, 0, 0, 13, 73, 72, 68, 82] ++ (be32 p.hd.w ++ (be32 p.hd.h ++ rest)) := by
    have e : ∀ r : List UInt8, [137, 80, 78, 71, 13, 10, 26, 10] ++ (be32 13 ++ (tag "IHDR" ++ r)) = [137, 80, 78, 71, 13, 10, 26, 10, 0, 0, 0, 13, 73, 72, 68, 82] ++ r := fun r => rfl
    have el : p.hd.bytes.length = 13 := rfl
    rw [Parts.bytes, pngChunk, el]
    simp only [List.append_assoc]
    rw [e, Header.bytes]
    simp only [List.append_assoc]
    exact ⟨_, rfl⟩
  obtain ⟨rest, hb⟩ := hb
  refine ⟨by rw [Signed, hb]; rfl, ?_, ?_, ?_⟩
  · rw [Apple, hb]
    exact fun h => absurd h (by show ¬ (73 * 16777216 + 72 * 65536 + 68 * 256 + 82 = 1130840649); omega)
  · have := num32_be32 hw (be32 p.hd.h ++ rest)
    rw [← this, be32At, ← num32_drop, hb]
    rfl
  · have := num32_be32 hh rest
    rw [← this, be32At, ← num32_drop, hb]
    rfl

/-- C126: the bound on the height is sharp.  The writer writes a valid file for an image of more than 16777216 rows, but it cannot be
loaded again. -/
theorem png_write_load_tall {x y n stride : Nat} {px : List UInt8} {hp : Heap} (hf : Fits x y n) (hs : stride = 0 ∨ stride = x * n) (hpx : px.length = x * y * n)
    (hm : Plenty hp) (hy : 16777216 < y) :
    ∃ l h, stbi_write_png true x y n px stride hp = .ok ((1, some l), h) ∧ readPng l = some ⟨x, y, n, px⟩ ∧ ∀ m other, stbi_load m other l = .ok none := by
  obtain ⟨l, h1, h2, h3⟩ := png_written hf hs hpx hm
  have hx : x < 16777216 := lt_of_le_of_lt (Nat.le_mul_of_pos_right x hf.n_pos) hf.row
  have hy2 : y ≤ y * (x * n + 1) := Nat.le_mul_of_pos_right y (Nat.succ_pos _)
  have hy3 := hf.all
  obtain ⟨p, s, P, e1, e2, -⟩ := readPng_isPng h2 (by omega) (by show x < _; omega) (by show y < _; omega)
  have e1 : p.hd.w = x := e1
  have e2 : p.hd.h = y := e2
  refine ⟨l, _, h1, h2, fun m other => ?_⟩
  obtain ⟨a, b, -, d⟩ := header_at (p := p) (by omega) (by omega)
  rw [← P.bytes] at a b d
  exact load_png_too_large a b (Or.inr (by omega))

/-- A grey image of 1 × 16777217 pixels. -/
example : ∃ l h, stbi_write_png true 1 16777217 1 (List.replicate 16777217 0) 1 ⟨0, [], fun _ => false⟩ = .ok ((1, some l), h) ∧
    readPng l = some ⟨1, 16777217, 1, List.replicate 16777217 0⟩ ∧ ∀ m other, stbi_load m other l = .ok none :=
  png_write_load_tall ⟨by omega, by omega, by omega, by omega, by omega, by omega⟩ (Or.inr rfl) (by rw [List.length_replicate]) (fun _ _ => rfl) (by omega)

end FlatCV.Props
