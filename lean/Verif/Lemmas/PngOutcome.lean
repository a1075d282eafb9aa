/-
The PNG decoder on arbitrary files: how it can end.
-/
import Verif.Lemmas.PngBack
import Verif.Lemmas.PngZlib

namespace FlatCV
open Model Png

/-- The number in four bytes from `k` on, as the decoder reads it: bytes after the end are 0. -/
theorem num32_drop (l : List UInt8) (k : Nat) :
    num32 (l.drop k) = (l.getD k 0).toNat * 16777216 + (l.getD (k + 1) 0).toNat * 65536 + (l.getD (k + 2) 0).toNat * 256 + (l.getD (k + 3) 0).toNat := by
  rw [num32, num16, num16, List.drop_drop, drop_getD, drop_getD, drop_getD, drop_getD]
  simp only [Nat.add_zero, Nat.add_assoc, Nat.reduceAdd]
  ring

theorem signature_append {file : List UInt8} (h : file.take 8 = [137, 80, 78, 71, 13, 10, 26, 10]) : file = [137, 80, 78, 71, 13, 10, 26, 10] ++ file.drop 8 := by
  rw [← h, List.take_append_drop]

/-- The header is as it is in the file, if the first chunk is not CgBI. -/
def FromHeader (file : List UInt8) (x y d c : Nat) : Prop :=
  num32 (file.drop 12) ≠ pngType 'C' 'g' 'B' 'I' →
    x = num32 (file.drop 16) ∧ y = num32 (file.drop 20) ∧ d = (file.getD 24 0).toNat ∧ c = (file.getD 25 0).toNat

theorem parse_outc {m : PngMem} {file : List UInt8} (h : file.take 8 = [137, 80, 78, 71, 13, 10, 26, 10]) :
    Outc (fun e => e = .uninitRead ∧ ∃ x y d, FromHeader file x y d 3) (parse_png_file m (start_file file)) fun r =>
      ∀ d, r = some d → ∃ S t, HdrOk t ∧ Shown t S d ∧ FromHeader file t.x t.y t.depth t.color := by
  obtain ⟨h1, h2⟩ := do_png_eq (signature_append h)
  have I := start_inv h2.ok
  have er : Ctx.rem (PState.start (check_png_header (start_file file)).2).s = file.drop 8 := h2.rem
  have hlen : (file.drop 8).length < file.length + 1 := by rw [List.length_drop]; omega
  have hfile : (check_png_header (start_file file)).2.file = file := h2.file.trans (start_next file).2.1
  rw [parse_png_file]
  simp only
  rw [if_pos h1, hfile]
  by_cases hc : num32 (file.drop 12) = pngType 'C' 'g' 'B' 'I'
  · refine parse_ok (FromHeader file) _ _ I (by rw [er]; omega) (fun _ x y d c h => absurd hc h) (fun e => (by cases e))
  · rw [parseChunks]
    refine Outc.bind ((step_ok (m := m) I).monoE fun e he => ?_) fun r hr => ?_
    · obtain ⟨_, hf, _⟩ := he
      cases hf
    · cases r with
      | fail => exact Outc.pure fun d e => (by cases e)
      | done d =>
        obtain ⟨_, _, _, _, _, _, _, hf, _⟩ := hr
        cases hf
      | more t' =>
        obtain ⟨q1, q2, _, q4⟩ := hr
        rw [er] at q2 q4
        rcases q4 rfl with ⟨e, _⟩ | ⟨e0, e1, e2, e3, e4⟩
        · rw [List.drop_drop] at e
          exact absurd e hc
        · refine parse_ok (FromHeader file) _ _ q1 (by omega) (fun e => ?_) (fun _ _ => ?_)
          · rw [e0] at e
            cases e
          · rw [e1, e2, e3, e4, ihdrX, ihdrY, ihdrDepth, ihdrColour, List.drop_drop, List.drop_drop, drop_getD, drop_getD]
            exact ⟨rfl, rfl, rfl, rfl⟩

/-- What a loaded image is like. -/
structure LoadedOk (L : Loaded) : Prop where
  x0 : 0 < L.x
  y0 : 0 < L.y
  x1 : L.x ≤ 16777216
  y1 : L.y ≤ 16777216
  n0 : 1 ≤ L.n
  n4 : L.n ≤ 4
  len : L.data.length = L.x * L.y * 4
  init : ∀ q, q < L.data.length → ∃ b, L.data[q]? = some (some b)

theorem loaded_ok {t : PState} {S : Samples} {L : Loaded} (H : HdrOk t) (h : LoadedAs t S L) : LoadedOk L := by
  refine ⟨by rw [h.x]; exact H.x0, by rw [h.y]; exact H.y0, by rw [h.x]; exact H.x1, by rw [h.y]; exact H.y1, ?_, ?_, by rw [h.len, h.x, h.y], fun q hq => ?_⟩
  · rw [h.n]
    have h1 := H.kind
    have h2 := H.pal3
    split_ifs <;> omega
  · rw [h.n]
    have h1 := H.kind
    have h2 := H.pal3
    have h3 := H.trans
    split_ifs with h4 h5
    · have := h2 h4
      omega
    · have := h3 h5
      omega
    · omega
  · rw [h.len] at hq
    have := h.data (q / 4) (by omega) (q % 4) (by omega)
    rw [show q / 4 * 4 + q % 4 = q by omega] at this
    exact ⟨_, this⟩

theorem load_outc {m : PngMem} {other : CM (Option Loaded)} {file : List UInt8} (h : file.take 8 = [137, 80, 78, 71, 13, 10, 26, 10]) :
    Outc (fun e => (e = .uninitRead ∧ ∃ x y d, FromHeader file x y d 3) ∨ (e = .oobWrite ∧ ∃ x y, 536870912 ≤ x * y ∧ FromHeader file x y 16 0))
      (stbi_load m other file) fun r => ∀ L, r = some L → LoadedOk L ∧ ∃ d c, FromHeader file L.x L.y d c := by
  obtain ⟨h1, h2⟩ := do_png_eq (signature_append h)
  rw [stbi_load, if_pos h1]
  have e : do_png m (start_file file) = (parse_png_file m (start_file file) >>= fun r => match r with | none => pure none | some d => convertAll m d) := rfl
  rw [e]
  refine Outc.bind ((parse_outc h).monoE fun e he => Or.inl he) fun r hr => ?_
  cases r with
  | none => exact Outc.pure fun L e => (by cases e)
  | some d =>
    obtain ⟨S, t, H, hS, hF⟩ := hr d rfl
    refine ((convert_ok (m := m) H hS).monoE ?_).mono ?_
    · rintro e ⟨e1, e2, e3, _, e5⟩
      rw [e2, e3] at hF
      exact Or.inr ⟨e1, _, _, e5, hF⟩
    · intro r hr L hL
      have := hr.1 L hL
      refine ⟨loaded_ok H this, t.depth, t.color, ?_⟩
      rw [this.x, this.y]
      exact hF

/-- A header with a size that is too large. -/
theorem load_too_large {m : PngMem} {other : CM (Option Loaded)} {file : List UInt8} (h : file.take 8 = [137, 80, 78, 71, 13, 10, 26, 10])
    (hc : num32 (file.drop 12) ≠ pngType 'C' 'g' 'B' 'I') (hl : 16777216 < num32 (file.drop 16) ∨ 16777216 < num32 (file.drop 20)) : stbi_load m other file = .ok none := by
  obtain ⟨h1, h2⟩ := do_png_eq (signature_append h)
  have I := start_inv h2.ok
  have er : Ctx.rem (PState.start (check_png_header (start_file file)).2).s = file.drop 8 := h2.rem
  have hp : parse_png_file m (start_file file) = .ok none := by
    rw [parse_png_file]
    simp only
    rw [if_pos h1, parseChunks]
    have := step_ok (m := m) I
    cases hs : chunkStep m (PState.start (check_png_header (start_file file)).2) with
    | error e =>
      rw [hs] at this
      obtain ⟨_, hf, _⟩ := this
      cases hf
    | ok r =>
      rw [hs] at this
      cases r with
      | fail => rfl
      | done d =>
        obtain ⟨_, _, _, _, _, _, _, hf, _⟩ := this
        cases hf
      | more t' =>
        obtain ⟨q1, q2, _, q4⟩ := this
        rw [er] at q4
        rcases q4 rfl with ⟨e, _⟩ | ⟨e0, e1, e2, e3, e4⟩
        · rw [List.drop_drop] at e
          exact absurd e hc
        · have H := q1.hdr e0
          have hx := H.x1
          have hy := H.y1
          rw [e1, ihdrX, List.drop_drop, show 8 + 8 = 16 from rfl] at hx
          rw [e2, ihdrY, List.drop_drop, List.drop_drop, show 8 + (8 + 4) = 20 from rfl] at hy
          omega
  rw [stbi_load, if_pos h1]
  have e : do_png m (start_file file) = (parse_png_file m (start_file file) >>= fun r => match r with | none => pure none | some d => convertAll m d) := rfl
  rw [e, hp]
  rfl

/-- Grey images with 16 bits and 2^29 or more pixels. -/
theorem load_grey16_overflow {m : PngMem} {other : CM (Option Loaded)} {file : List UInt8} {p : Parts} {s : Samples} (P : IsPng file p s) (hc : p.hd.colour = 0) (hd : p.hd.depth = 16) (ht : p.trns = none)
    (hw : p.hd.w ≤ 16777216) (hh : p.hd.h ≤ 16777216) (hb : 536870912 ≤ p.hd.w * p.hd.h) (hs : 2 * (p.hd.w * p.hd.h) + 2 * p.hd.w + p.hd.h ≤ 2147483647)
    (hi : ∀ l ∈ p.idat, l.length ≤ 1073741824) (hz : p.idat.flatten.length < 2147483648)
    (hr : ∀ raw, zlibDecode p.idat.flatten = some raw → raw.length < 2147483648) (M : MemGood m) : stbi_load m other file = .error .oobWrite := by
  have hn : p.hd.samples = 1 := by simp only [Header.samples, hc]
  have hF : ∀ t D rest, PngAt p.hd p.plte p.trns D rest t → outChannels t = 1 ∧ SizeFits t ∧ (t.x * t.depth + 7) / 8 * t.y * t.n + t.y < 2147483648 := by
    intro t D rest A
    have ho : outChannels t = 1 := by
      have h1 : t.n = 1 := A.n.trans hn
      have h2 : t.trans = false := by rw [A.trans, ht]; simp
      rw [outChannels, if_neg, h1]
      rintro (⟨h, _⟩ | h)
      · omega
      · rw [h2] at h
        cases h
    have e2 : rowBytes 16 1 p.hd.w = p.hd.w * 2 := by rw [rowBytes]; omega
    have e3 : p.hd.w * 2 * p.hd.h = 2 * (p.hd.w * p.hd.h) := by ring
    have e4 : (p.hd.w * 16 + 7) / 8 = p.hd.w * 2 := by omega
    rw [SizeFits, ho, A.n, A.x, A.y, A.depth, A.color, hn, hd, hc, RawFits, e2, e3, e4, e3, sampleBytes, if_pos rfl]
    exact ⟨rfl, ⟨⟨by omega, by omega, by omega, by omega⟩, fun h => (by cases h)⟩, by omega⟩
  obtain ⟨h1, d, t, rest, hp, A, hSh, _⟩ := parse_valid (m := m) P hw hh (by rw [hc, hn, if_neg (by omega)]; omega) (fun t D rest A => (hF t D rest A).2) hi hz hr M
  rw [do_png_parse h1 hp, convertAll]
  have ho := hSh.outN
  rw [if_neg (by rw [A.color, hc]; omega), (hF _ _ _ A).1] at ho
  have hx : t.x * t.y = p.hd.w * p.hd.h := by rw [A.x, A.y]
  have hD := hSh.out
  rw [if_neg (by rw [hSh.depth, A.depth, hd]; omega), convert_format16, if_neg (by omega), M.convert]
  rw [ho] at hD ⊢
  simp only [Bool.not_true, Bool.false_eq_true, if_false]
  rw [toFour_small (g := fun p => finalPix t s (p % t.x) (p / t.x)) (by rw [hSh.x, hSh.y]; exact hD) (by
    have hlt : u32 (4 * d.x * d.y * 2) < 4294967296 := Nat.mod_lt _ (by norm_num)
    rw [List.length_replicate, hSh.x, hSh.y]
    rw [hSh.x, hSh.y] at hlt
    omega)]
  rfl

/-! ### An image of zeros -/

theorem unfilterRow_zeros {bpp : Nat} {prior : List UInt8} (k : Nat) (done : List UInt8) : unfilterRow bpp 0 prior done (List.replicate k 0) = some (done ++ List.replicate k 0) := by
  induction k generalizing done with
  | zero => rw [List.replicate_zero, unfilterRow, List.append_nil]
  | succ k ih =>
    rw [List.replicate_succ, unfilterRow]
    have e : unfilterByte bpp 0 prior done 0 = some 0 := rfl
    rw [e]
    simp only
    rw [ih, List.append_assoc]
    rfl

theorem unfilterRows_zeros {bpp rb : Nat} (h : Nat) (prior : List UInt8) :
    unfilterRows bpp rb h prior (List.replicate (h * (rb + 1)) 0) = some (List.replicate h (List.replicate rb 0), []) := by
  induction h generalizing prior with
  | zero =>
    rw [Nat.zero_mul]
    rfl
  | succ h ih =>
    have e : List.replicate ((h + 1) * (rb + 1)) (0 : UInt8) = 0 :: (List.replicate rb 0 ++ List.replicate (h * (rb + 1)) 0) := by
      rw [← List.replicate_add, ← List.replicate_succ]
      congr 1
      ring
    rw [e, unfilterRows, if_pos (by simp), List.take_left' (by simp), List.drop_left' (by simp)]
    have e0 : (0 : UInt8).toNat = 0 := rfl
    rw [e0, unfilterRow_zeros, List.nil_append, Option.bind_some, ih]
    rfl

/-- `k` stored blocks of `n` zeros each, and an empty last block. -/
def zeroStream (k n : Nat) : List UInt8 :=
  120 :: 1 :: ((List.replicate k (storedBlock false (List.replicate n 0))).flatten ++ (storedBlock true [] ++ adler32 (List.replicate (k * n) 0)))

theorem zeroStream_length (k n : Nat) : (zeroStream k n).length = k * (n + 5) + 11 := by
  rw [zeroStream]
  simp only [List.length_cons, List.length_append, List.length_flatten, List.map_replicate, storedBlock, List.length_replicate, List.sum_replicate, adler32, be16, List.length_nil, smul_eq_mul]
  ring

theorem zero_blocks {n : Nat} (hn : n < 65536) (k f : Nat) {R : List Bool} (hR : R.length % 8 = 0) (out : List UInt8) :
    inflateBlocks (f + k) (bitsOf (List.replicate k (storedBlock false (List.replicate n 0))).flatten ++ R) out = inflateBlocks f R (out ++ List.replicate (k * n) 0) := by
  induction k generalizing out with
  | zero => simp [bitsOf]
  | succ k ih =>
    rw [List.replicate_succ, List.flatten_cons, bitsOf_append, List.append_assoc, ← Nat.add_assoc, inflateBlocks_stored (by simpa using hn) (by
      rw [List.length_append, bitsOf_length]
      omega)]
    rw [if_neg (by simp), ih, List.append_assoc, ← List.replicate_add]
    congr 3
    ring

theorem zero_decode {k n : Nat} (hn : n < 65536) : zlibRead (zeroStream k n) = some (List.replicate (k * n) 0) := by
  rw [zeroStream, zlibRead, if_pos (by decide)]
  have hl : ∃ f, (bitsOf ((List.replicate k (storedBlock false (List.replicate n 0))).flatten ++ (storedBlock true [] ++ adler32 (List.replicate (k * n) 0)))).length = f + 1 + k := by
    refine ⟨(bitsOf ((List.replicate k (storedBlock false (List.replicate n 0))).flatten ++ (storedBlock true [] ++ adler32 (List.replicate (k * n) 0)))).length - 1 - k, ?_⟩
    have := zeroStream_length k n
    rw [zeroStream, List.length_cons, List.length_cons] at this
    have h2 : k * (n + 5) = k * n + k * 5 := Nat.mul_add _ _ _
    rw [bitsOf_length]
    omega
  obtain ⟨f, hf⟩ := hl
  rw [hf, bitsOf_append, zero_blocks hn _ _ (by rw [bitsOf_length]; omega), bitsOf_append, inflateBlocks_stored (by simp) (by rw [bitsOf_length]; omega), if_pos rfl]
  simp only [List.nil_append, List.append_nil]
  rw [if_pos]
  rw [bitsOf_length, show 8 * (adler32 (List.replicate (k * n) 0)).length % 8 = 0 by omega, List.drop_zero]

/-- A grey image with 16 bits, all black, its data in two chunks. -/
def blackParts (w h k n cut : Nat) : Parts :=
  ⟨⟨w, h, 16, 0, 0⟩, [], none, [], none, [], [(zeroStream k n).take cut, (zeroStream k n).drop cut], []⟩

theorem black_idat (w h k n cut : Nat) : (blackParts w h k n cut).idat = [(zeroStream k n).take cut, (zeroStream k n).drop cut] := rfl

theorem black_flat (w h k n cut : Nat) : (blackParts w h k n cut).idat.flatten = zeroStream k n := by
  show ((zeroStream k n).take cut ++ ((zeroStream k n).drop cut ++ [])) = _
  rw [List.append_nil, List.take_append_drop]

theorem black_isPng {w h k n cut : Nat} (hw : 0 < w) (hh : 0 < h) (hw' : w < 2147483648) (hh' : h < 2147483648) (hn : n < 65536) (hk : k * n = h * (w * 2 + 1)) (hc : cut < 2147483648)
    (hl : k * (n + 5) + 11 < cut + 2147483648) : ∃ s, IsPng (blackParts w h k n cut).bytes (blackParts w h k n cut) s := by
  have hflat := black_flat w h k n cut
  have hread : ∃ s, readSamples (blackParts w h k n cut).hd (List.replicate (k * n) 0) = some s := by
    have h0 : (blackParts w h k n cut).hd.interlace = 0 := rfl
    rw [readSamples, if_pos h0, readPass]
    have e : (w * (Header.mk w h 16 0 0).samples * 16 + 7) / 8 = w * 2 := by
      show (w * 1 * 16 + 7) / 8 = w * 2
      omega
    show ∃ s, ((unfilterRows _ ((w * (Header.mk w h 16 0 0).samples * 16 + 7) / 8) h (List.replicate ((w * (Header.mk w h 16 0 0).samples * 16 + 7) / 8) 0) (List.replicate (k * n) 0)).map _).bind _ = some s
    rw [e, hk, unfilterRows_zeros]
    exact ⟨_, rfl⟩
  obtain ⟨s, hs⟩ := hread
  refine ⟨s, rfl, ⟨⟨hw, hh, hw', hh', (by decide : 16 ∈ depthsOf 0), Nat.zero_le _⟩, by simp [blackParts], by simp [blackParts], by simp [blackParts], by simp [blackParts], ⟨fun l e => (by cases e), fun e => (by cases e)⟩, fun l e => (by cases e),
    fun l hlm => ?_⟩, ⟨_, by rw [hflat]; exact zlibRead_decode (zero_decode hn), hs⟩, fun e => (by cases e)⟩
  have hlm : l ∈ [(zeroStream k n).take cut, (zeroStream k n).drop cut] := hlm
  have hz := zeroStream_length k n
  rcases List.mem_cons.mp hlm with rfl | hlm
  · rw [List.length_take]
    omega
  · rw [List.mem_singleton.mp hlm, List.length_drop]
    omega

end FlatCV
