/-
The JPEG file: what a reader finds in the file that `stbi_write_jpg` writes.
-/
import Verif.Lemmas.JpegScan

namespace FlatCV
open Model Jpg

/-! ### Segments -/

theorem jpgSeg_step {f : ℕ} {m a b : UInt8} {body rest : List UInt8} {t : Tables} (h : a.toNat * 256 + b.toNat = body.length + 2) :
    readSegments (f + 1) (0xFF :: m :: a :: b :: (body ++ rest)) t =
      if m = 0xDA then (readSOS body).map fun c => (t, c, rest)
      else if m = 0xDB then (readDQT 4 body t).bind (readSegments f rest)
      else if m = 0xC4 then (readDHT 32 body t).bind (readSegments f rest)
      else if m = 0xC0 then (readSOF body).bind fun fr => if t.frame = none then readSegments f rest { t with frame := some fr } else none
      else if 0xE0 ≤ m.toNat ∧ m.toNat < 0xF0 ∨ m = 0xFE then readSegments f rest t
      else none := by
  conv_lhs => unfold readSegments
  simp only [h]
  rw [if_pos ⟨trivial, by omega, by rw [List.length_append]; omega⟩, show body.length + 2 - 2 = body.length by omega, List.take_left,
    List.drop_left]

theorem dqt_step {f : ℕ} {b : UInt8} {l rest : List UInt8} {t : Tables} (hb : b.toNat < 4) (hl : l.length = 64) :
    readDQT (f + 1) (b :: (l ++ rest)) t =
      readDQT f rest { t with qt := fun i => if i = b.toNat then some (l.map (·.toNat)) else t.qt i } := by
  conv_lhs => unfold readDQT
  rw [if_pos ⟨hb, by rw [List.length_append]; omega⟩, ← hl, List.take_left, List.drop_left]

theorem dht_step {f : ℕ} {b : UInt8} {counts vals rest : List UInt8} {t : Tables} (hb : b.toNat < 32) (hc : counts.length = 16)
    (hv : (counts.map (·.toNat)).sum = vals.length) :
    readDHT (f + 1) (b :: (counts ++ (vals ++ rest))) t =
      readDHT f rest { t with ht := fun i => if i = b.toNat then some (mkCode (counts.map (·.toNat)) (vals.map (·.toNat))) else t.ht i } := by
  conv_lhs => unfold readDHT
  have e1 : (counts ++ (vals ++ rest)).take 16 = counts := by rw [← hc, List.take_left]
  have e2 : (counts ++ (vals ++ rest)).drop 16 = vals ++ rest := by rw [← hc, List.drop_left]
  simp only [e1, e2, hv]
  rw [if_pos ⟨hb, by simp only [List.length_append]; omega⟩, List.take_left, List.drop_left]

theorem seg_app {f : ℕ} {rest : List UInt8} {t : Tables} :
    readSegments (f + 1) (0xFF :: 0xE0 :: 0 :: 0x10 :: ([74, 70, 73, 70, 0, 1, 1, 0, 0, 1, 0, 1, 0, 0] ++ rest)) t = readSegments f rest t := by
  rw [jpgSeg_step (by rfl), if_neg (by decide), if_neg (by decide), if_neg (by decide), if_neg (by decide), if_pos (by decide)]

theorem seg_dqt {f : ℕ} {yt uvt rest : List UInt8} {t : Tables} (hy : yt.length = 64) (huv : uvt.length = 64) :
    readSegments (f + 1) (0xFF :: 0xDB :: 0 :: 0x84 :: ((0 :: (yt ++ (1 :: (uvt ++ [])))) ++ rest)) t =
      readSegments f rest { t with
        qt := fun i => if i = 1 then some (uvt.map (·.toNat)) else if i = 0 then some (yt.map (·.toNat)) else t.qt i } := by
  have hl : (0 : UInt8).toNat * 256 + (0x84 : UInt8).toNat = (0 :: (yt ++ (1 :: (uvt ++ [])))).length + 2 := by
    simp only [List.length_cons, List.length_append, List.length_nil, hy, huv]
    decide
  rw [jpgSeg_step hl, if_neg (by decide), if_pos rfl, dqt_step (by decide) hy, dqt_step (by decide) huv,
    show ∀ t, readDQT 2 [] t = some t from fun t => rfl, Option.bind_some]
  rfl

theorem u8_nat (n : ℕ) : (u8 n).toNat = n % 256 := by
  unfold u8
  simp

theorem u8_pair {n : ℕ} (h : n ≤ 65535) : (u8 (n / 256)).toNat * 256 + (u8 n).toNat = n := by
  rw [u8_nat, u8_nat]
  omega

theorem seg_sof {f w h : ℕ} {rest : List UInt8} {t : Tables} (hw : w ≤ 65535) (hh : h ≤ 65535) (ht : t.frame = none) :
    readSegments (f + 1) (0xFF :: 0xC0 :: 0 :: 0x11 :: ([8, u8 (h / 256), u8 h, u8 (w / 256), u8 w, 3, 1, 0x22, 0, 2, 0x11, 1, 3, 0x11, 1] ++
      rest)) t = readSegments f rest { t with frame := some ⟨h, w, [⟨1, 2, 2, 0⟩, ⟨2, 1, 1, 1⟩, ⟨3, 1, 1, 1⟩]⟩ } := by
  have hl : (0 : UInt8).toNat * 256 + (0x11 : UInt8).toNat =
      [8, u8 (h / 256), u8 h, u8 (w / 256), u8 w, 3, 1, 0x22, 0, 2, 0x11, 1, 3, 0x11, 1].length + 2 := by
    simp only [List.length_cons, List.length_nil]
    decide
  rw [jpgSeg_step hl, if_neg (by decide), if_neg (by decide), if_neg (by decide), if_pos rfl]
  have hs : readSOF [8, u8 (h / 256), u8 h, u8 (w / 256), u8 w, 3, 1, 0x22, 0, 2, 0x11, 1, 3, 0x11, 1] =
      some ⟨h, w, [⟨1, 2, 2, 0⟩, ⟨2, 1, 1, 1⟩, ⟨3, 1, 1, 1⟩]⟩ := by
    have e1 : (u8 (h / 256)).toNat * 256 + (u8 h).toNat = h := u8_pair hh
    have e2 : (u8 (w / 256)).toNat * 256 + (u8 w).toNat = w := u8_pair hw
    unfold readSOF
    simp only [if_true, e1, e2]
    rfl
  rw [hs, Option.bind_some, if_pos ht]

theorem seg_dht {f : ℕ} {c0 v0 c1 v1 c2 v2 c3 v3 rest : List UInt8} {t : Tables} (hc0 : c0.length = 16) (hc1 : c1.length = 16)
    (hc2 : c2.length = 16) (hc3 : c3.length = 16) (hv0 : v0.length = 12) (hv1 : v1.length = 162) (hv2 : v2.length = 12)
    (hv3 : v3.length = 162) (h0 : (c0.map (·.toNat)).sum = 12) (h1 : (c1.map (·.toNat)).sum = 162) (h2 : (c2.map (·.toNat)).sum = 12)
    (h3 : (c3.map (·.toNat)).sum = 162) :
    readSegments (f + 1) (0xFF :: 0xC4 :: 0x01 :: 0xA2 :: ((0 :: (c0 ++ (v0 ++ (0x10 :: (c1 ++ (v1 ++ (1 :: (c2 ++ (v2 ++
      (0x11 :: (c3 ++ (v3 ++ [])))))))))))) ++ rest)) t =
      readSegments f rest { t with
        ht := fun i => if i = 17 then some (mkCode (c3.map (·.toNat)) (v3.map (·.toNat)))
          else if i = 1 then some (mkCode (c2.map (·.toNat)) (v2.map (·.toNat)))
          else if i = 16 then some (mkCode (c1.map (·.toNat)) (v1.map (·.toNat)))
          else if i = 0 then some (mkCode (c0.map (·.toNat)) (v0.map (·.toNat))) else t.ht i } := by
  have hl : (0x01 : UInt8).toNat * 256 + (0xA2 : UInt8).toNat = (0 :: (c0 ++ (v0 ++ (0x10 :: (c1 ++ (v1 ++ (1 :: (c2 ++ (v2 ++
      (0x11 :: (c3 ++ (v3 ++ [])))))))))))).length + 2 := by
    simp only [List.length_cons, List.length_append, List.length_nil, hc0, hc1, hc2, hc3, hv0, hv1, hv2, hv3]
    decide
  rw [jpgSeg_step hl, if_neg (by decide), if_neg (by decide), if_pos rfl, dht_step (by decide) hc0 (by rw [h0, hv0]),
    dht_step (by decide) hc1 (by rw [h1, hv1]), dht_step (by decide) hc2 (by rw [h2, hv2]), dht_step (by decide) hc3 (by rw [h3, hv3]),
    show ∀ t, readDHT 28 [] t = some t from fun t => rfl, Option.bind_some]
  rfl

theorem seg_sos {f : ℕ} {rest : List UInt8} {t : Tables} :
    readSegments (f + 1) (0xFF :: 0xDA :: 0 :: 0xC :: ([3, 1, 0, 2, 0x11, 3, 0x11, 0, 0x3F, 0] ++ rest)) t =
      some (t, [(1, 0, 0), (2, 1, 1), (3, 1, 1)], rest) := by
  rw [jpgSeg_step (by rfl), if_pos rfl]
  rfl

/-! ### The header -/

/-- The steps of luminance, in zigzag order. -/
def yTab : List UInt8 :=
  [3, 2, 2, 3, 2, 2, 3, 3, 3, 3, 4, 3, 3, 4, 5, 8, 5, 5, 4, 4, 5, 10, 7, 7, 6, 8, 12, 10, 12, 12, 11, 10, 11, 11, 13, 14, 18, 16, 13, 14, 17, 14,
    11, 11, 16, 22, 16, 17, 19, 20, 21, 21, 21, 12, 15, 23, 24, 22, 20, 24, 18, 20, 21, 20]

/-- The steps of the differences. -/
def uvTab : List UInt8 :=
  [3, 4, 4, 5, 4, 5, 9, 5, 5, 9, 20, 13, 11, 13, 20, 20, 20, 20, 20, 20, 20, 20, 20, 20, 20, 20, 20, 20, 20, 20, 20, 20, 20, 20, 20, 20, 20, 20,
    20, 20, 20, 20, 20, 20, 20, 20, 20, 20, 20, 20, 20, 20, 20, 20, 20, 20, 20, 20, 20, 20, 20, 20, 20, 20]

theorem yTab_ok : quantTable YQT (qualityScale 90) = .ok yTab := by decide +kernel

theorem uvTab_ok : quantTable UVQT (qualityScale 90) = .ok uvTab := by decide +kernel

theorem yTab_len : yTab.length = 64 := by decide

theorem uvTab_len : uvTab.length = 64 := by decide

theorem steps_of {table : List UInt8} (hl : table.length = 64) (h2 : ∀ k < 64, 2 ≤ (table.getD k 0).toNat) :
    ∃ f, scaleTable table = .ok (fnTab 64 f) ∧ StepsFor table f := by
  obtain ⟨f, e, h⟩ := scaleTable_ok hl fun k hk => by have := h2 k hk; omega
  exact ⟨f, e, hl, h2, h⟩

theorem yTab_steps : ∃ f, scaleTable yTab = .ok (fnTab 64 f) ∧ StepsFor yTab f := steps_of yTab_len (by decide +kernel)

theorem uvTab_steps : ∃ f, scaleTable uvTab = .ok (fnTab 64 f) ∧ StepsFor uvTab f := steps_of uvTab_len (by decide +kernel)

/-- The frame of the file. -/
def frame420 (w h : ℕ) : Frame := ⟨h, w, [⟨1, 2, 2, 0⟩, ⟨2, 1, 1, 1⟩, ⟨3, 1, 1, 1⟩]⟩

/-- The tables in the file. -/
def tables420 (w h : ℕ) : Tables where
  qt := fun i => if i = 1 then some (uvTab.map (·.toNat)) else if i = 0 then some (yTab.map (·.toNat)) else none
  ht := fun i => if i = 17 then some uvAC else if i = 1 then some uvDC else if i = 16 then some yAC else if i = 0 then some yDC else none
  frame := some (frame420 w h)

/-- The header is read back. -/
theorem head_read {w h : ℕ} (hw : w ≤ 65535) (hh : h ≤ 65535) (rest : List UInt8) (f : ℕ) :
    ∃ l, jpgHead w h yTab uvTab ++ rest = 0xFF :: 0xD8 :: l ∧ 
      readSegments (f + 5) l ⟨fun _ => none, fun _ => none, none⟩ = some (tables420 w h, [(1, 0, 0), (2, 1, 1), (3, 1, 1)], rest) := by
  refine ⟨0xFF :: 0xE0 :: 0 :: 0x10 :: ([74, 70, 73, 70, 0, 1, 1, 0, 0, 1, 0, 1, 0, 0] ++
    (0xFF :: 0xDB :: 0 :: 0x84 :: ((0 :: (yTab ++ (1 :: (uvTab ++ [])))) ++
    (0xFF :: 0xC0 :: 0 :: 0x11 :: ([8, u8 (h / 256), u8 h, u8 (w / 256), u8 w, 3, 1, 0x22, 0, 2, 0x11, 1, 3, 0x11, 1] ++
    (0xFF :: 0xC4 :: 0x01 :: 0xA2 :: ((0 :: (dcLumCodes.drop 1 ++ (dcLumValues ++ (0x10 :: (acLumCodes.drop 1 ++ (acLumValues ++
      (1 :: (dcChromCodes.drop 1 ++ (dcChromValues ++ (0x11 :: (acChromCodes.drop 1 ++ (acChromValues ++ [])))))))))))) ++
    (0xFF :: 0xDA :: 0 :: 0xC :: ([3, 1, 0, 2, 0x11, 3, 0x11, 0, 0x3F, 0] ++ rest))))))))), ?_, ?_⟩
  · simp only [jpgHead, List.append_assoc, List.cons_append, List.nil_append, List.append_nil]
  · rw [seg_app, seg_dqt yTab_len uvTab_len, seg_sof hw hh (by rfl), seg_dht (by decide +kernel) (by decide +kernel) (by decide +kernel)
      (by decide +kernel) (by decide +kernel) (by decide +kernel) (by decide +kernel) (by decide +kernel) (by decide +kernel)
      (by decide +kernel) (by decide +kernel) (by decide +kernel), seg_sos]
    rfl

/-! ### The file -/

theorem across420 (w h : ℕ) : (frame420 w h).across = (w + 15) / 16 := by
  unfold Frame.across frame420
  simp only [maxOf, List.map_cons, List.map_nil, List.foldl_cons, List.foldl_nil]
  norm_num

theorem down420 (w h : ℕ) : (frame420 w h).down = (h + 15) / 16 := by
  unfold Frame.down frame420
  simp only [maxOf, List.map_cons, List.map_nil, List.foldl_cons, List.foldl_nil]
  norm_num

theorem units420 (w h : ℕ) : scanUnits (tables420 w h) (frame420 w h).comps [(1, 0, 0), (2, 1, 1), (3, 1, 1)] = some (scan3 yTab uvTab) := by
  rfl

/-- The file that is written. -/
theorem jpg_core_run {data : List UInt8} {w h : ℕ} (hd : data.length = w * h * 4) (hw : 0 < w) (hh : 0 < h) (hw' : w ≤ 900000)
    (hh' : h ≤ 900000) (hb : w * h * 4 ≤ 2147483647) :
    ∃ dat bits pad ms, stbi_write_jpg_core false w h data = .ok (some (jpgHead w h yTab uvTab ++ (stuff dat ++ [0xFF, 0xD9]))) ∧
      bitsOf dat = bits ++ pad ∧ pad.length < 8 ∧ pad.all id = true ∧
      decodeMCUs (scan3 yTab uvTab) ((h + 15) / 16 * ((w + 15) / 16)) [0, 0, 0] (bits ++ pad) = some (ms, pad) ∧
      ms.length = (h + 15) / 16 * ((w + 15) / 16) ∧
      ∀ i j, i < (h + 15) / 16 → j < (w + 15) / 16 → McuOk w h data yTab uvTab i j (ms.getD (i * ((w + 15) / 16) + j) []) := by
  obtain ⟨fy, ey, hy⟩ := yTab_steps
  obtain ⟨fuv, euv, huv⟩ := uvTab_steps
  have start : ScanInv w h data yTab uvTab (jpgHead w h yTab uvTab) 0 ⟨0, 0, 0, ⟨jpgHead w h yTab uvTab, 0, 0⟩⟩ := by
    refine ⟨by norm_num, [], [], Emitted.start _, rfl, fun i j _ h => absurd h (by omega), ?_⟩
    intro N rest r b hr
    rw [Nat.zero_add]
    exact hr
  obtain ⟨s, e, hs0, bits, ms, h1, h2, h3, h4⟩ := scan_ok hd hw hh hb hy huv hw' hh' start
  obtain ⟨w', dat, pad, e2, k1, k2, k3, k4⟩ := h1.finish
  have h6 := h4 0 pad [] pad rfl
  rw [Nat.add_zero, List.append_nil] at h6
  refine ⟨dat, bits, pad, ms, ?_, k2, k3, k4, h6, h2, ?_⟩
  · unfold stbi_write_jpg_core
    rw [if_neg (by omega), yTab_ok, ok_bind, uvTab_ok, ok_bind, ey, ok_bind, euv, ok_bind, e, ok_bind, e2, ok_bind, k1, List.append_assoc]
    rfl
  · intro i j hi hj
    refine h3 i j hj ?_
    have : (i + 1) * ((w + 15) / 16) ≤ (h + 15) / 16 * ((w + 15) / 16) := Nat.mul_le_mul_right _ (by omega)
    have : (i + 1) * ((w + 15) / 16) = i * ((w + 15) / 16) + (w + 15) / 16 := by ring
    omega

/-- What a reader finds in a file of that form. -/
theorem jpg_read {w h : ℕ} (hw : 0 < w) (hh : 0 < h) (hw' : w ≤ 65535) (hh' : h ≤ 65535) {dat : List UInt8} {bits pad : List Bool}
    {ms : List (List (List (List Int)))} (k2 : bitsOf dat = bits ++ pad) (k3 : pad.length < 8) (k4 : pad.all id = true)
    (h6 : decodeMCUs (scan3 yTab uvTab) ((h + 15) / 16 * ((w + 15) / 16)) [0, 0, 0] (bits ++ pad) = some (ms, pad)) :
    readJpeg (jpgHead w h yTab uvTab ++ (stuff dat ++ [0xFF, 0xD9])) = some ⟨frame420 w h, (scan3 yTab uvTab).map (·.q), ms⟩ := by
  have hfuel : ∀ l : List UInt8, jpgHead w h yTab uvTab ++ (stuff dat ++ [0xFF, 0xD9]) = 0xFF :: 0xD8 :: l → 5 ≤ l.length + 1 := by
    intro l hl
    have := congrArg List.length hl
    simp only [jpgHead, List.length_append, List.length_cons, yTab_len] at this
    omega
  obtain ⟨l, e3, _⟩ := head_read (w := w) (h := h) hw' hh' (stuff dat ++ [0xFF, 0xD9]) 0
  have h5 := hfuel l e3
  obtain ⟨l', e3', e4⟩ := head_read (w := w) (h := h) hw' hh' (stuff dat ++ [0xFF, 0xD9]) (l.length + 1 - 5)
  have : l' = l := by
    rw [e3] at e3'
    injection e3' with _ e5
    injection e5 with _ e6
    exact e6.symm
  subst this
  rw [show l'.length + 1 - 5 + 5 = l'.length + 1 by omega] at e4
  rw [e3]
  unfold readJpeg
  simp only [and_self, if_true]
  rw [e4]
  simp only [Option.bind_eq_bind, Option.bind_some]
  rw [show (tables420 w h).frame = some (frame420 w h) from rfl]
  simp only [Option.bind_some]
  rw [units420]
  simp only [Option.bind_some]
  rw [if_pos ⟨hw, hh, by decide⟩]
  unfold readScan
  rw [unstuff_stuff]
  simp only [Option.bind_eq_bind, Option.bind_some]
  rw [across420, down420, k2, show (w + 15) / 16 * ((h + 15) / 16) = (h + 15) / 16 * ((w + 15) / 16) from Nat.mul_comm _ _]
  rw [show ((scan3 yTab uvTab).map fun _ => (0 : Int)) = [0, 0, 0] from rfl, h6]
  simp only [Option.bind_some]
  rw [if_pos ⟨k3, k4, trivial⟩]

/-- What a reader finds in the written file. -/
theorem jpg_core_ok {data : List UInt8} {w h : ℕ} (hd : data.length = w * h * 4) (hw : 0 < w) (hh : 0 < h) (hw' : w ≤ 65535)
    (hh' : h ≤ 65535) (hb : w * h * 4 ≤ 2147483647) :
    ∃ l ms, stbi_write_jpg_core false w h data = .ok (some l) ∧
      readJpeg l = some ⟨frame420 w h, (scan3 yTab uvTab).map (·.q), ms⟩ ∧
      ∀ i j, i < (h + 15) / 16 → j < (w + 15) / 16 → McuOk w h data yTab uvTab i j (ms.getD (i * ((w + 15) / 16) + j) []) := by
  obtain ⟨dat, bits, pad, ms, e, k2, k3, k4, h6, -, h7⟩ := jpg_core_run hd hw hh (by omega) (by omega) hb
  exact ⟨_, ms, e, jpg_read hw hh hw' hh' k2 k3 k4 h6, h7⟩

/-! ### Widths in any file -/

theorem readDQT_frame : ∀ (f : ℕ) (l : List UInt8) (t t' : Tables), readDQT f l t = some t' → t'.frame = t.frame := by
  intro f
  induction f with
  | zero =>
    intro l t t' h
    cases l with
    | nil => unfold readDQT at h; injection h with h; rw [h]
    | cons b l => unfold readDQT at h; exact absurd h (by simp)
  | succ f ih =>
    intro l t t' h
    cases l with
    | nil => unfold readDQT at h; injection h with h; rw [h]
    | cons b l =>
      unfold readDQT at h
      split at h
      · have := ih _ _ _ h
        exact this
      · exact absurd h (by simp)

theorem readDHT_frame : ∀ (f : ℕ) (l : List UInt8) (t t' : Tables), readDHT f l t = some t' → t'.frame = t.frame := by
  intro f
  induction f with
  | zero =>
    intro l t t' h
    cases l with
    | nil => unfold readDHT at h; injection h with h; rw [h]
    | cons b l => unfold readDHT at h; exact absurd h (by simp)
  | succ f ih =>
    intro l t t' h
    cases l with
    | nil => unfold readDHT at h; injection h with h; rw [h]
    | cons b l =>
      unfold readDHT at h
      dsimp only at h
      split at h
      · have := ih _ _ _ h
        exact this
      · exact absurd h (by simp)

theorem readSOF_size {l : List UInt8} {fr : Frame} (h : readSOF l = some fr) : fr.width < 65536 ∧ fr.height < 65536 := by
  unfold readSOF at h
  split at h
  · rename_i p y1 y0 x1 x0 n l
    split at h
    · obtain ⟨c, -, rfl⟩ := Option.map_eq_some_iff.1 h
      have := y1.toNat_lt
      have := y0.toNat_lt
      have := x1.toNat_lt
      have := x0.toNat_lt
      constructor <;> simp only <;> omega
    · exact absurd h (by simp)
  · exact absurd h (by simp)

theorem readSegments_size : ∀ (f : ℕ) (l : List UInt8) (t t' : Tables) (c : List (ℕ × ℕ × ℕ)) (rest : List UInt8),
    readSegments f l t = some (t', c, rest) → (∀ fr, t.frame = some fr → fr.width < 65536 ∧ fr.height < 65536) →
    ∀ fr, t'.frame = some fr → fr.width < 65536 ∧ fr.height < 65536 := by
  intro f
  induction f with
  | zero => intro l t t' c rest h; unfold readSegments at h; exact absurd h (by simp)
  | succ f ih =>
    intro l t t' c rest h ht
    unfold readSegments at h
    split at h
    · dsimp only at h
      split at h
      · split at h
        · obtain ⟨s, -, e⟩ := Option.map_eq_some_iff.1 h
          injection e with e _
          rw [← e]
          exact ht
        · split at h
          · obtain ⟨t1, h1, h2⟩ := Option.bind_eq_some_iff.1 h
            exact ih _ _ _ _ _ h2 (by rw [readDQT_frame _ _ _ _ h1]; exact ht)
          · split at h
            · obtain ⟨t1, h1, h2⟩ := Option.bind_eq_some_iff.1 h
              exact ih _ _ _ _ _ h2 (by rw [readDHT_frame _ _ _ _ h1]; exact ht)
            · split at h
              · obtain ⟨fr, h1, h2⟩ := Option.bind_eq_some_iff.1 h
                split at h2
                · refine ih _ _ _ _ _ h2 ?_
                  intro fr' e
                  injection e with e
                  rw [← e]
                  exact readSOF_size h1
                · exact absurd h2 (by simp)
              · split at h
                · exact ih _ _ _ _ _ h ht
                · exact absurd h (by simp)
      · exact absurd h (by simp)
    · exact absurd h (by simp)

/-- No file holds an image with a side of 65536 pixels or more. -/
theorem readJpeg_size {l : List UInt8} {d : Contents} (h : readJpeg l = some d) : d.frame.width < 65536 ∧ d.frame.height < 65536 := by
  unfold readJpeg at h
  split at h
  · split at h
    · obtain ⟨⟨t, sc, rest⟩, h1, h⟩ := Option.bind_eq_some_iff.1 h
      obtain ⟨fr, h2, h⟩ := Option.bind_eq_some_iff.1 h
      obtain ⟨us, h3, h⟩ := Option.bind_eq_some_iff.1 h
      split at h
      · unfold readScan at h
        obtain ⟨⟨a, b⟩, h4, h⟩ := Option.bind_eq_some_iff.1 h
        obtain ⟨⟨m, b⟩, h5, h⟩ := Option.bind_eq_some_iff.1 h
        dsimp only at h
        split at h
        · injection h with h
          rw [← h]
          exact readSegments_size _ _ _ _ _ _ h1 (fun fr e => absurd e (by simp)) fr h2
        · exact absurd h (by simp)
      · exact absurd h (by simp)
    · exact absurd h (by simp)
  · exact absurd h (by simp)

end FlatCV
