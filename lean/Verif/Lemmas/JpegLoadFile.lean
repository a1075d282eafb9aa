import Verif.Lemmas.JpegPixels
import Verif.Lemmas.JpegAccuracy

/-! Helper lemmas: a file with the header of the writer is loaded. -/

namespace FlatCV
open Model Jpg

theorem zag_idx : ∀ v < 8, ∀ u < 8, zigzag.idxOf (v, u) < 64 ∧ zagOf (zigzag.idxOf (v, u)) = 8 * v + u := by decide +kernel

theorem sum_8x8 (f : ℕ → ℝ) : ∑ k ∈ Finset.range 64, f k = ∑ v ∈ Finset.range 8, ∑ u ∈ Finset.range 8, f (8 * v + u) := by
  simp only [Finset.sum_range_succ, Finset.sum_range_zero]
  ring

theorem sample_near {dq : List ℕ} {data l : List Int} (Z : Zd dq data l) {st : ℕ → ℕ} (hst : ∀ p < 64, dq.getD (zagOf p) 0 = st p) {y x : ℕ} (hy : y < 8) (hx : x < 8) :
    |((stbClamp (idctV (fun q => data.getD q 0) y x)).toNat : ℝ) -
      limit (128 + idct (fun v u => (st (zigzag.idxOf (v, u)) : ℝ) * (l.getD (zigzag.idxOf (v, u)) 0 : ℝ)) y x)| ≤
      617 / 1000 + (∑ v ∈ Finset.range 8, ∑ u ∈ Finset.range 8, |(st (zigzag.idxOf (v, u)) : ℝ) * (l.getD (zigzag.idxOf (v, u)) 0 : ℝ)|) / 5900 := by
  have val : ∀ p < 64, (data.getD (zagOf p) 0 : ℝ) = (st p : ℝ) * (l.getD p 0 : ℝ) := by
    intro p hp
    rw [Z.2 p hp, hst p hp]
    push_cast
    ring
  have hs : ∑ k ∈ Finset.range 64, |(data.getD k 0 : ℝ)| =
      ∑ v ∈ Finset.range 8, ∑ u ∈ Finset.range 8, |(st (zigzag.idxOf (v, u)) : ℝ) * (l.getD (zigzag.idxOf (v, u)) 0 : ℝ)| := by
    rw [sum_8x8 (fun k => |(data.getD k 0 : ℝ)|)]
    refine Finset.sum_congr rfl fun v hv => Finset.sum_congr rfl fun u hu => ?_
    rw [Finset.mem_range] at hv hu
    obtain ⟨k1, k2⟩ := zag_idx v hv u hu
    rw [← k2, val _ k1]
  have he : idct (fun v u => (data.getD (8 * v + u) 0 : ℝ)) y x = idct (fun v u => (st (zigzag.idxOf (v, u)) : ℝ) * (l.getD (zigzag.idxOf (v, u)) 0 : ℝ)) y x := by
    unfold idct
    congr 1
    refine Finset.sum_congr rfl fun v hv => Finset.sum_congr rfl fun u hu => ?_
    rw [Finset.mem_range] at hv hu
    obtain ⟨k1, k2⟩ := zag_idx v hv u hu
    dsimp only
    rw [← k2, val _ k1]
  have := stbClamp_near (idctV_exact (fun q => data.getD q 0) hy hx)
  rw [hs, he] at this
  exact this

/-- The contents of a file with the header of the writer. -/
def contents420 (w h : ℕ) (yt uvt : List UInt8) (ms : List (List (List (List Int)))) : Contents := ⟨frame420 w h, (scan3 yt uvt).map (·.q), ms⟩

theorem contents_step (w h : ℕ) (yt uvt : List UInt8) (ms : List (List (List (List Int)))) {c : ℕ} (hc : c < 3) (k : ℕ) :
    (contents420 w h yt uvt ms).step c k = ((if c = 0 then yt else uvt).getD k 0).toNat := by
  have g : ∀ l : List UInt8, (l.map (·.toNat)).getD k 0 = (l.getD k 0).toNat := by
    intro l
    simp only [List.getD_eq_getElem?_getD, List.getElem?_map]
    cases l[k]? <;> rfl
  rcases three_cases hc with rfl | rfl | rfl
  · exact g yt
  · exact g uvt
  · exact g uvt

/-- The block of a component that contains row `r` and column `x`. -/
def blockAt (w : ℕ) (ms : List (List (List (List Int)))) (c r x : ℕ) : Option (List Int) :=
  (ms[r / 8 / side c * ((w + 15) / 16) + x / 8 / side c]?).bind fun b => (b[c]?).bind (·[r / 8 % side c * side c + x / 8 % side c]?)

theorem contents_coef {w h : ℕ} {yt uvt : List UInt8} {ms : List (List (List (List Int)))} {c r x : ℕ} (hc : c < 3) {l : List Int} (hl : blockAt w ms c r x = some l) (k : ℕ) :
    (contents420 w h yt uvt ms).coef c (r / 8) (x / 8) k = l.getD k 0 := by
  have key : ∀ i t, ((ms[i]?).bind fun b => (b[c]?).bind (·[t]?)) = some l → ((ms.getD i []).getD c []).getD t [] = l := by
    intro i t h
    rw [Option.bind_eq_some_iff] at h
    obtain ⟨b, h1, h⟩ := h
    rw [Option.bind_eq_some_iff] at h
    obtain ⟨b', h2, h3⟩ := h
    simp only [List.getD_eq_getElem?_getD, h1, h2, h3, Option.getD_some]
  have hs : ((frame420 w h).comps.getD c ⟨0, 1, 1, 0⟩).hs = side c ∧ ((frame420 w h).comps.getD c ⟨0, 1, 1, 0⟩).vs = side c := by
    rcases three_cases hc with rfl | rfl | rfl <;> exact ⟨rfl, rfl⟩
  unfold Contents.coef contents420
  dsimp only
  rw [hs.1, hs.2, across420, key _ _ hl]

theorem contents_recon {w h : ℕ} {yt uvt : List UInt8} {ms : List (List (List (List Int)))} {c r x : ℕ} (hc : c < 3) {l : List Int} (hl : blockAt w ms c r x = some l) :
    (contents420 w h yt uvt ms).recon c r x =
      idct (fun v u => (((if c = 0 then yt else uvt).getD (zigzag.idxOf (v, u)) 0).toNat : ℝ) * (l.getD (zigzag.idxOf (v, u)) 0 : ℝ)) (r % 8) (x % 8) := by
  unfold Contents.recon
  simp only [contents_step _ _ _ _ _ hc, contents_coef hc hl]

/-- All blocks are there. -/
def Shape420 (w h : ℕ) (ms : List (List (List (List Int)))) : Prop :=
  ∀ c < 3, ∀ r < (h + 15) / 16 * side c * 8, ∀ x < (w + 15) / 16 * side c * 8, ∃ l, blockAt w ms c r x = some l

/-- How far a sample is from the exact one. -/
noncomputable def sampleBound (d : Contents) (c r x : ℕ) : ℝ :=
  617 / 1000 + (∑ v ∈ Finset.range 8, ∑ u ∈ Finset.range 8,
    |(d.step c (zigzag.idxOf (v, u)) : ℝ) * (d.coef c (r / 8) (x / 8) (zigzag.idxOf (v, u)) : ℝ)|) / 5900

theorem side_pos (c : ℕ) : 1 ≤ side c := by unfold side; split <;> omega

theorem plane_ok {w h : ℕ} {yt uvt : List UInt8} {ms : List (List (List (List Int)))} {j : Jst} (D : Decoded420 w h yt uvt ms j) (S : Shape420 w h ms) {k : ℕ} (hk : k < 3) :
    ∃ c, j.comps[k]? = some c ∧ c.h = side k ∧ c.v = side k ∧ c.y = (h * side k + 1) / 2 ∧
      ∀ r < (h + 15) / 16 * side k * 8, ∀ x < (w + 15) / 16 * side k * 8, ∃ b : UInt8, c.data[r * c.w2 + x]? = some (some b) ∧
        |(b.toNat : ℝ) - limit (128 + (contents420 w h yt uvt ms).recon k r x)| ≤ sampleBound (contents420 w h yt uvt ms) k r x := by
  obtain ⟨c, dq, hc, h1, h2, -, h4, h5, -, h7, h8⟩ := D.comps k hk
  refine ⟨c, hc, h1, h2, h4, fun r hr x hx => ?_⟩
  obtain ⟨l, hl⟩ := S k hk r hr x hx
  have ha := side_pos k
  have hX : x / 8 / side k < (w + 15) / 16 := by
    rw [Nat.div_lt_iff_lt_mul (by omega), Nat.div_lt_iff_lt_mul (by omega)]
    exact hx
  have hY : r / 8 / side k < (h + 15) / 16 := by
    rw [Nat.div_lt_iff_lt_mul (by omega), Nat.div_lt_iff_lt_mul (by omega)]
    exact hr
  have e1 : (r / 8 / side k * ((w + 15) / 16) + x / 8 / side k) / ((w + 15) / 16) = r / 8 / side k := by
    rw [Nat.mul_comm, Nat.mul_add_div (Nat.lt_of_le_of_lt (Nat.zero_le _) hX), Nat.div_eq_of_lt hX, Nat.add_zero]
  have e2 : (r / 8 / side k * ((w + 15) / 16) + x / 8 / side k) % ((w + 15) / 16) = x / 8 / side k := by
    rw [Nat.mul_comm, Nat.mul_add_mod, Nat.mod_eq_of_lt hX]
  have m1 := Nat.mod_lt (r / 8) ha
  have m2 := Nat.mod_lt (x / 8) ha
  have e3 : (r / 8 % side k * side k + x / 8 % side k) / side k = r / 8 % side k := by
    rw [Nat.mul_comm, Nat.mul_add_div (by omega), Nat.div_eq_of_lt m2, Nat.add_zero]
  have e4 : (r / 8 % side k * side k + x / 8 % side k) % side k = x / 8 % side k := by
    rw [Nat.mul_comm, Nat.mul_add_mod, Nat.mod_mod]
  have hq : r / 8 / side k * ((w + 15) / 16) + x / 8 / side k < (w + 15) / 16 * ((h + 15) / 16) := by
    calc r / 8 / side k * ((w + 15) / 16) + x / 8 / side k < r / 8 / side k * ((w + 15) / 16) + (w + 15) / 16 := by omega
      _ = (r / 8 / side k + 1) * ((w + 15) / 16) := by ring
      _ ≤ (h + 15) / 16 * ((w + 15) / 16) := Nat.mul_le_mul_right _ hY
      _ = _ := Nat.mul_comm _ _
  have ht : r / 8 % side k * side k + x / 8 % side k < side k * side k := by
    calc r / 8 % side k * side k + x / 8 % side k < r / 8 % side k * side k + side k := by omega
      _ = (r / 8 % side k + 1) * side k := by ring
      _ ≤ _ := Nat.mul_le_mul_right _ m1
  have cells := h8 _ _ l hq ht hl
  rw [e1, e2, e3, e4] at cells
  rw [Nat.div_add_mod' (r / 8) (side k), Nat.div_add_mod' (x / 8) (side k)] at cells
  obtain ⟨data, Z, hcell⟩ := cells
  refine ⟨stbClamp (idctV (fun q => data.getD q 0) (r % 8) (x % 8)), ?_, ?_⟩
  · have := hcell (r % 8) (Nat.mod_lt _ (by norm_num)) (x % 8) (Nat.mod_lt _ (by norm_num))
    rw [show c.w2 * (r / 8 * 8) + x / 8 * 8 + r % 8 * c.w2 + x % 8 = r * c.w2 + x from ?_] at this
    · exact this
    · have a := Nat.div_add_mod' r 8
      have b := Nat.div_add_mod' x 8
      calc c.w2 * (r / 8 * 8) + x / 8 * 8 + r % 8 * c.w2 + x % 8 = (r / 8 * 8 + r % 8) * c.w2 + (x / 8 * 8 + x % 8) := by ring
        _ = _ := by rw [a, b]
  · rw [contents_recon hk hl]
    unfold sampleBound
    simp only [contents_step _ _ _ _ _ hk, contents_coef hk hl]
    exact sample_near Z (st := fun p => ((if k = 0 then yt else uvt).getD p 0).toNat) h7 (Nat.mod_lt _ (by norm_num)) (Nat.mod_lt _ (by norm_num))

/-- There is memory for everything. -/
structure JpegMem.Enough (m : JpegMem) : Prop where
  test : m.test = true
  state : m.state = true
  plane : ∀ i, m.plane i = true
  line : ∀ i, m.line i = true
  out : m.out = true

theorem load_pixels {mem : JpegMem} (hm : JpegMem.Enough mem) {feof : Ctx → Bool} {prog : CM (Option Loaded)} {s : Ctx} {w h : ℕ} (w1 : 1 ≤ w) (h1 : 1 ≤ h)
    (hwh : w * h * 4 ≤ 2147483647) {yt uvt : List UInt8} {ms : List (List (List (List Int)))} {j : Jst}
    (hj : decode_jpeg_image mem feof (Jst.start s) = .ok (some j)) (D : Decoded420 w h yt uvt ms j) (S : Shape420 w h ms) :
    ∃ out P, load_jpeg_image mem feof prog s = .ok (some ⟨w, h, 3, out⟩) ∧ LinesDone P w h out h ∧
      ∀ c < 3, ∀ r < (h + 15) / 16 * side c * 8, ∀ x < (w + 15) / 16 * side c * 8,
        |((P c r x).toNat : ℝ) - limit (128 + (contents420 w h yt uvt ms).recon c r x)| ≤ sampleBound (contents420 w h yt uvt ms) c r x := by
  obtain ⟨c0, g0, a0, b0, y0, p0⟩ := plane_ok D S (k := 0) (by norm_num)
  obtain ⟨c1, g1, a1, b1, y1, p1⟩ := plane_ok D S (k := 1) (by norm_num)
  obtain ⟨c2, g2, a2, b2, y2, p2⟩ := plane_ok D S (k := 2) (by norm_num)
  have S0 : side 0 = 2 := rfl
  have S1 : side 1 = 1 := rfl
  have S2 : side 2 = 1 := rfl
  have pick : ∀ c : JComp, ∃ f : ℕ → ℕ → UInt8, ∀ r x b, c.data[r * c.w2 + x]? = some (some b) → f r x = b := by
    intro c
    refine ⟨fun r x => ((c.data[r * c.w2 + x]?).getD none).getD 0, fun r x b h => ?_⟩
    dsimp only
    rw [h]
    rfl
  obtain ⟨f0, q0⟩ := pick c0
  obtain ⟨f1, q1⟩ := pick c1
  obtain ⟨f2, q2⟩ := pick c2
  have hX2 : w ≤ (w + 15) / 16 * 2 * 8 := by omega
  have hY2 : h ≤ (h + 15) / 16 * 2 * 8 := by omega
  have hX1 : (w + 1) / 2 ≤ (w + 15) / 16 * 1 * 8 := by omega
  have hY1 : (h + 1) / 2 ≤ (h + 15) / 16 * 1 * 8 := by omega
  rw [S0] at a0 b0 y0 p0
  rw [S1] at a1 b1 y1 p1
  rw [S2] at a2 b2 y2 p2
  obtain ⟨st, e, L⟩ := lines_ok (j := j) (w := w) (h := h) (c0 := c0) (c1 := c1) (c2 := c2) w1 D.imgN D.imgX D.rgb D.app14 ⟨D.hMax, D.vMax⟩ (by omega) (by omega) (by omega)
    ⟨a0, b0⟩ ⟨a1, b1⟩ ⟨a2, b2⟩ (P := fun c => if c = 0 then f0 else if c = 1 then f1 else f2)
    (fun r hr x hx => by obtain ⟨b, k1, -⟩ := p0 r (by omega) x (by omega); rw [k1]; show _ = some (some (f0 r x)); rw [q0 r x b k1])
    (fun r hr x hx => by obtain ⟨b, k1, -⟩ := p1 r (by omega) x (by omega); rw [k1]; show _ = some (some (f1 r x)); rw [q1 r x b k1])
    (fun r hr x hx => by obtain ⟨b, k1, -⟩ := p2 r (by omega) x (by omega); rw [k1]; show _ = some (some (f2 r x)); rw [q2 r x b k1])
  refine ⟨st.out, _, ?_, L, ?_⟩
  · unfold load_jpeg_image jpeg_pixels
    refine (bind_of_eq hj _).trans ?_
    dsimp only
    rw [D.sequential, D.imgN]
    have hcs : j.comps.take 3 = [c0, c1, c2] := by
      refine List.ext_getElem? fun i => ?_
      rw [List.getElem?_take]
      match i with
      | 0 => exact g0
      | 1 => exact g1
      | 2 => exact g2
      | i + 3 => simp
    rw [hcs, if_neg (by decide), if_pos (by simp [hm.line])]
    rw [show mad3ok 4 j.imgX j.imgY 1 = true from ?_, hm.out, if_pos (by rfl), D.imgX, D.imgY]
    · refine (bind_of_eq e _).trans ?_
      rfl
    · rw [D.imgX, D.imgY]
      refine mad3ok_of h1 ?_
      rw [show 4 * w * h = w * h * 4 by ring]
      omega
  · intro c hc r hr x hx
    rcases three_cases hc with rfl | rfl | rfl
    · obtain ⟨b, k1, k2⟩ := p0 r hr x hx
      rw [← q0 r x b k1] at k2
      exact k2
    · obtain ⟨b, k1, k2⟩ := p1 r hr x hx
      rw [← q1 r x b k1] at k2
      exact k2
    · obtain ⟨b, k1, k2⟩ := p2 r hr x hx
      rw [← q2 r x b k1] at k2
      exact k2

theorem headD_ff {l : List UInt8} {t : List UInt8} (h : l = 0xFF :: 0xD8 :: t) : l.headD 0 = 0xFF := by rw [h]; rfl

/-- A file that starts like a JPEG file goes to the decoder of JPEG files. -/
theorem any_jpeg {pm : PngMem} {mem : JpegMem} (hm : JpegMem.Enough mem) {feof : Ctx → Bool} {prog other : CM (Option Loaded)} {t : List UInt8} :
    stbi_load_any pm mem feof prog other (0xFF :: 0xD8 :: t) = load_jpeg_image mem feof prog (start_file (0xFF :: 0xD8 :: t)) := by
  obtain ⟨c1, c2, c3⟩ := start_next (0xFF :: 0xD8 :: t)
  rw [if_neg (by simp), List.append_nil] at c3
  obtain ⟨s1, e1, n1⟩ := get8_cons c1 c3
  unfold stbi_load_any
  rw [if_neg]
  · rw [if_neg (by show ¬ ((0xFF : UInt8) = 0x42 ∨ (0xFF : UInt8) = 0x47 ∨ (0xFF : UInt8) = 0x38 ∨ (0xFF : UInt8) = 0x53); decide), if_neg (by simp)]
    obtain ⟨s', e2, -⟩ := get_marker_cons (j := { Jst.start (start_file (0xFF :: 0xD8 :: t)) with e := ⟨start_file (0xFF :: 0xD8 :: t), 0, 0, 0xFF, false⟩ }) c1 rfl
      (m := 0xD8) (by decide) c3
    refine (bind_of_eq (a := true) ?_ _).trans ?_
    · unfold jpeg_test
      rw [if_pos hm.test]
      refine (bind_of_eq e2 _).trans ?_
      rfl
    · rw [if_pos rfl, if_pos hm.state]
  · unfold check_png_header
    simp [e1]

/-- A file of the writer is loaded. -/
theorem load_420 {pm : PngMem} {mem : JpegMem} (hm : JpegMem.Enough mem) {feof : Ctx → Bool} {prog other : CM (Option Loaded)} {w h : ℕ} (hw : w ≤ 65535) (hh : h ≤ 65535) (w1 : 1 ≤ w)
    (h1 : 1 ≤ h) (hwh : w * h * 4 ≤ 2147483647) {yt uvt dat tail : List UInt8} (lyt : yt.length = 64) (luvt : uvt.length = 64)
    (hy1 : 1 ≤ (yt.getD 0 0).toNat) (huv1 : 1 ≤ (uvt.getD 0 0).toNat) {ms : List (List (List (List Int)))} {rest : List Bool}
    (hd : decodeMCUs (scan3 yt uvt) ((w + 15) / 16 * ((h + 15) / 16)) [0, 0, 0] (bitsOf dat) = some (ms, rest)) (hrest : rest.length < 8)
    (hfit : Fit420 yt uvt ms) (S : Shape420 w h ms) :
    ∃ out P, stbi_load_any pm mem feof prog other (jpgHead w h yt uvt ++ (stuff dat ++ 0xFF :: 0xD9 :: tail)) = .ok (some ⟨w, h, 3, out⟩) ∧ LinesDone P w h out h ∧
      ∀ c < 3, ∀ r < (h + 15) / 16 * side c * 8, ∀ x < (w + 15) / 16 * side c * 8,
        |((P c r x).toNat : ℝ) - limit (128 + (contents420 w h yt uvt ms).recon c r x)| ≤ sampleBound (contents420 w h yt uvt ms) c r x := by
  obtain ⟨t, ht⟩ : ∃ t, jpgHead w h yt uvt ++ (stuff dat ++ 0xFF :: 0xD9 :: tail) = 0xFF :: 0xD8 :: t := by
    simp only [jpgHead, List.append_assoc, List.cons_append]
    exact ⟨_, rfl⟩
  have hctx := start_next (0xFF :: 0xD8 :: t)
  rw [if_neg (by simp), List.append_nil] at hctx
  obtain ⟨j, ej, D⟩ := decode_420 hm.plane (feof := feof) hw hh w1 h1 hwh lyt luvt hctx.1 (hctx.2.2.trans ht.symm) hy1 huv1 hd hrest hfit
  obtain ⟨out, P, e, L, B⟩ := load_pixels hm (feof := feof) (prog := prog) w1 h1 hwh ej D S
  refine ⟨out, P, ?_, L, B⟩
  rw [ht, any_jpeg hm]
  exact e

end FlatCV
