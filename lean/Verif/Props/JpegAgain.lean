/-
The program is called with a JPEG file that was saved (C141).
-/
import Verif.Props.JpegLoad
import Verif.Props.JpegMain

namespace FlatCV.Props
open Model Spec Jpg

variable {P : Plat} {M : MathLib} {L : Lib} {W : World} {R : Sized → Prop} {data : List UInt8} {w h : ℕ}

/-- The decoder that `main` calls for the file `path` is the JPEG decoder: whenever that returns, `main` gets its result (the block has one byte more than
the image, which is not used). -/
def DecodesJpeg (W : World) (pm : PngMem) (mem : JpegMem) (feof : Ctx → Bool) (path : List Char) (file : List UInt8) : Prop :=
  ∀ r, stbi_load_any pm mem feof (.ok none) (.ok none) file = .ok r →
    W.load path = r.map fun l => (l.x, l.y, (l.data.map fun b => b.getD 0).take (l.x * l.y * 4))

/-- The colours of the image `V` are close to those that the file stands for, and it is opaque. -/
def NearContents (d : Contents) (w h : ℕ) (V : List UInt8) : Prop :=
  V.length = w * h * 4 ∧ ∀ y < h, ∀ x < w, |((V.getD ((y * w + x) * 4) 0).toNat : ℝ) - d.red y x| ≤ 6.4 ∧
    |((V.getD ((y * w + x) * 4 + 1) 0).toNat : ℝ) - d.green y x| ≤ 5.5 ∧ |((V.getD ((y * w + x) * 4 + 2) 0).toNat : ℝ) - d.blue y x| ≤ 7.4 ∧
    V.getD ((y * w + x) * 4 + 3) 0 = 255

theorem seg_bytes {m a b : UInt8} {p : List UInt8} (n : ℕ) (h : p.length = n) (hn : u16b false (n + 2) = [a, b]) : Seg.bytes ⟨m, p⟩ = [0xFF, m, a, b] ++ p := by
  unfold Seg.bytes
  dsimp only
  rw [h, hn]
  rfl

/-- The contents of the segment with the Huffman codes. -/
def codesSeg : List UInt8 :=
  [0] ++ dcLumCodes.drop 1 ++ dcLumValues ++ [0x10] ++ acLumCodes.drop 1 ++ acLumValues ++ [1] ++ dcChromCodes.drop 1 ++ dcChromValues ++
    [0x11] ++ acChromCodes.drop 1 ++ acChromValues

theorem codesSeg_len : codesSeg.length = 416 := by decide +kernel

/-- The headers of the file have no EXIF data. -/
theorem written_upright (w h : ℕ) (rest : List UInt8) : ShowsOrientation (some (jpgHead w h yTab uvTab ++ rest)) 1 := by
  have hy := yTab_len
  have huv := uvTab_len
  generalize yTab = yt at *
  generalize uvTab = uvt at *
  have l1 : ([0] ++ yt ++ [1] ++ uvt).length = 130 := by simp [hy, huv]
  have e : jpgHead w h yt uvt ++ rest = jpegHead [⟨0xE0, [74, 70, 73, 70, 0, 1, 1, 0, 0, 1, 0, 1, 0, 0]⟩, ⟨0xDB, [0] ++ yt ++ [1] ++ uvt⟩,
      ⟨0xC0, [8, u8 (h / 256), u8 h, u8 (w / 256), u8 w, 3, 1, 0x22, 0, 2, 0x11, 1, 3, 0x11, 1]⟩, ⟨0xC4, codesSeg⟩] ++
        ([0xFF, 0xDA] ++ ([0, 0xC, 3, 1, 0, 2, 0x11, 3, 0x11, 0, 0x3F, 0] ++ rest)) := by
    unfold jpegHead
    simp only [List.flatMap_cons, List.flatMap_nil]
    rw [seg_bytes (a := 0) (b := 16) 14 rfl (by decide), seg_bytes (a := 0) (b := 132) 130 l1 (by decide), seg_bytes (a := 0) (b := 17) 15 rfl (by decide),
      seg_bytes (a := 1) (b := 162) 416 codesSeg_len (by decide)]
    unfold jpgHead codesSeg
    simp only [List.append_assoc, List.cons_append, List.nil_append]
  rw [e]
  refine .absent ?_ (Or.inr rfl)
  intro s hs
  simp only [List.mem_cons, List.not_mem_nil, or_false] at hs
  have pl : ∀ (m : UInt8) (p : List UInt8), p.length ≤ 416 → m ≠ 0xD9 → m ≠ 0xDA → m ≠ 0xE1 → Seg.Plain ⟨m, p⟩ := fun m p h1 h2 h3 h4 =>
    ⟨by show p.length + 2 < 65536; omega, h2, h3, fun h => absurd h h4⟩
  rcases hs with rfl | rfl | rfl | rfl
  · exact pl _ _ (by simp) (by decide) (by decide) (by decide)
  · exact pl _ _ (by rw [l1]; norm_num) (by decide) (by decide) (by decide)
  · exact pl _ _ (by simp) (by decide) (by decide) (by decide)
  · exact pl _ _ (by rw [codesSeg_len]) (by decide) (by decide) (by decide)

theorem upright_one (w h : ℕ) {V : List UInt8} (hV : V.length = w * h * 4) : uprightSize 1 w h = (w, h) ∧ Upright 1 w h V V :=
  ⟨rfl, hV, fun _ _ _ _ _ _ => rfl⟩

/-- A cell of the result. -/
theorem cell_byte {out : Cells UInt8} {n p : ℕ} {b : UInt8} (hp : p < n) (h : out[p]? = some (some b)) : ((out.map fun b => b.getD 0).take n).getD p 0 = b := by
  rw [List.getD_eq_getElem?_getD, List.getElem?_take_of_lt hp, List.getElem?_map, h]
  rfl

/-- The program sees the saved image, upright. -/
theorem opens_jpeg (hi : JpegFits w h data) (hs : w * h < 268435456) {l : List UInt8} (ew : stbi_write_jpg false true w h data = .ok (1, some l))
    {pm : PngMem} {mem : JpegMem} (hm : JpegMem.Enough mem) {feof : Ctx → Bool} {inp : List Char} (hf : W.file inp = some l) (hd : DecodesJpeg W pm mem feof inp l) :
    ∃ d V, readJpeg l = some d ∧ d.frame.width = w ∧ d.frame.height = h ∧ NearContents d w h V ∧ Opens W inp ⟨w, h, V⟩ := by
  obtain ⟨l', d, ew', rd, dw, dh, ld⟩ := jpeg_load hi
  obtain rfl := wrote_inj ew ew'
  obtain ⟨out, o1, o2⟩ := ld pm mem hm feof (.ok none) (.ok none)
  have lo := hd _ o1
  rw [Option.map_some] at lo
  have hlen : w * h * 4 ≤ out.length := by
    have hw := hi.w_pos
    have hh := hi.h_pos
    obtain ⟨r, g, b, p, -⟩ := o2 (h - 1) (by omega) (w - 1) (by omega)
    obtain ⟨hl, -⟩ := List.getElem?_eq_some_iff.1 p.2.2.2
    have : (h - 1) * w + (w - 1) + 1 = w * h := by
      obtain ⟨k, rfl⟩ : ∃ k, h = k + 1 := ⟨h - 1, by omega⟩
      rw [Nat.add_sub_cancel, Nat.mul_succ, Nat.mul_comm w k]
      omega
    omega
  have hV : ((out.map fun b => b.getD 0).take (w * h * 4)).length = w * h * 4 := by
    rw [List.length_take, List.length_map]
    omega
  refine ⟨d, _, rd, dw, dh, ⟨hV, fun y hy x hx => ?_⟩, w, h, _, lo, hi.w_pos, hi.h_pos, hV, hs, ?_⟩
  · obtain ⟨r, g, b, p, n1, n2, n3⟩ := o2 y hy x hx
    have hin : (y * w + x) * 4 + 3 < w * h * 4 := by
      have h1 : (y + 1) * w ≤ h * w := Nat.mul_le_mul_right _ hy
      have h2 : (y + 1) * w = y * w + w := by ring
      have h3 : h * w = w * h := Nat.mul_comm _ _
      omega
    rw [cell_byte (by omega) p.1, cell_byte (by omega) p.2.1, cell_byte (by omega) p.2.2.1, cell_byte (by omega) p.2.2.2]
    exact ⟨n1, n2, n3, rfl⟩
  · by_cases hj : JpegName inp
    · refine Or.inr ⟨hj, 1, ?_, (upright_one w h hV).1.symm, (upright_one w h hV).2⟩
      rw [hf]
      obtain ⟨dat, bits, pad, ms, e, -⟩ := jpg_core_run hi.len hi.w_pos hi.h_pos (by have := hi.w_le; omega) (by have := hi.h_le; omega) hi.bytes
      have ew2 : stbi_write_jpg false true w h data = .ok (1, some (jpgHead w h yTab uvTab ++ (stuff dat ++ [0xFF, 0xD9]))) := by
        unfold stbi_write_jpg
        rw [if_pos rfl, e]
        rfl
      rw [wrote_inj ew ew2]
      exact written_upright w h _
    · exact Or.inl ⟨hj, rfl⟩

/-- C141: the program is called with a JPEG file that was saved for the image `data` and with arguments whose text leads from every image that is close to the
contents of the file to results in `R`.  Unless an allocation fails, the image that it saves is a result in `R`. -/
theorem main_jpeg_again (hl : 2147483647 ≤ L.lmax) (hex : ExpOk M.ex) {prog inp out : List Char} {args : List (List Char)} (ha : Args P args)
    (hn : (pieces (joined args)).length < 1073741824) (hne : pieces (joined args) ≠ [])
    (hi : JpegFits w h data) (hs : w * h < 268435456) {l : List UInt8} (ew : stbi_write_jpg false true w h data = .ok (1, some l))
    {pm : PngMem} {mem : JpegMem} (hm : JpegMem.Enough mem) {feof : Ctx → Bool} (hfile : W.file inp = some l) (hd : DecodesJpeg W pm mem feof inp l)
    (h' : ∀ d V, readJpeg l = some d → NearContents d w h V → Leads L.atof (pieces (joined args)) ⟨w, h, V⟩ R)
    (hR : JpegOut out ∨ ∀ o, R o → o.w < 536870912) (hw : W.writable out = true) {hp : Heap} (hf : ∀ j, hp.fails j = false) :
    HOk (main P M L W (prog :: inp :: (args ++ [out]))) hp fun r h' => h'.live.Perm hp.live ∧ r.1 = 0 ∧ ∃ s o, r.2 = some s ∧ s.path = out ∧
      R o ∧ s.width = o.w ∧ s.height = o.h ∧ s.bytes = o.d := by
  obtain ⟨d, V, rd, -, -, near, ho⟩ := opens_jpeg hi hs ew hm hfile hd
  refine (main_leads_picture hl hex ha hn hne ho (h' d V rd near) hR hf).mono ?_
  rintro r h'' ⟨hperm, o, hr, -, rfl⟩
  rw [hw, if_pos rfl]
  exact ⟨hperm, rfl, _, o, rfl, rfl, hr, rfl, rfl, rfl⟩

/-- A world in which the file `in.jpg` has the bytes `l`. -/
def jpegWorld (l : List UInt8) : World :=
  ⟨fun _ => match stbi_load_any allPng allJpeg (fun _ => false) (.ok none) (.ok none) l with
    | .ok r => r.map fun (l : Model.Loaded) => (l.x, l.y, (l.data.map fun b => b.getD 0).take (l.x * l.y * 4))
    | .error _ => none, fun _ => some l, fun _ => true⟩

theorem jpegWorld_decodes (l : List UInt8) (path : List Char) : DecodesJpeg (jpegWorld l) allPng allJpeg (fun _ => false) path l := by
  intro r hr
  unfold jpegWorld
  dsimp only
  rw [hr]

/-- `flatcv in.jpg crop 1x1+1+0 out.png`, where the input is the file that was saved for an image of 3 by 2 pixels: the result has one pixel. -/
example : ∃ M : MathLib, ∃ l, stbi_write_jpg false true 3 2 jpeg3x2 = .ok (1, some l) ∧ HOk (main Plat.lp64 M lib90 (jpegWorld l)
      ("flatcv".toList :: "in.jpg".toList :: (["crop", "1x1+1+0"].map String.toList ++ ["out.png".toList])))
    Heap.fresh fun r _ => ∃ s, r.2 = some s ∧ s.width = 1 ∧ s.height = 1 := by
  obtain ⟨ex, hex⟩ := expOk_exists
  have hi : JpegFits 3 2 jpeg3x2 := ⟨by decide, by decide, by decide, by decide, by decide, by decide⟩
  obtain ⟨l, d, h1, -⟩ := jpeg_load hi
  refine ⟨{ noMath with ex := ex }, l, h1, (main_jpeg_again (R := fun o => o.w = 1 ∧ o.h = 1) (by decide) hex ⟨by decide, by decide⟩ (by decide +kernel) (by decide +kernel) hi
    (by decide) h1 allJpeg_enough rfl (jpegWorld_decodes l _) ?_ (Or.inr fun o ho => by rw [ho.1]; decide) rfl (fun _ => rfl)).mono ?_⟩
  · intro d V _ _
    rw [show pieces (joined (["crop", "1x1+1+0"].map String.toList)) =
      ["crop".toList ++ ' ' :: (Spec.dec 1 ++ 'x' :: (Spec.dec 1 ++ (signed 1 ++ signed 0)))] by decide +kernel]
    refine .cons (show 3 * 2 < 268435456 by decide) (.crop (by decide) (by decide) (by decide) (by decide) (by decide) (by decide) (show (1 : Int) < 3 by decide) (show (0 : Int) < 2 by decide)) ?_
    rintro _ rfl
    exact .nil ⟨rfl, rfl⟩
  · rintro r h' ⟨-, -, s, o, h1, -, h2, h3, h4, -⟩
    exact ⟨s, h1, by rw [h3, h2.1]; rfl, by rw [h4, h2.2]; rfl⟩

end FlatCV.Props
