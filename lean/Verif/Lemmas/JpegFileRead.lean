import Verif.Lemmas.JpegHead

/-! Helper lemmas: the decoder reads a file with the header of the writer. -/

namespace FlatCV
open Model Jpg

theorem three_cases {k : ℕ} (h : k < 3) : k = 0 ∨ k = 1 ∨ k = 2 := by omega

theorem afterScan_ok {feof : Ctx → Bool} {tail : List UInt8} {j : Jst} {R : List Bool} (E : EntOk 0xD9 tail j.e R) (hR : R.length < 8) :
    ∃ m j', afterScan feof j = .ok (m, j') ∧ (m = 0xD9 ∨ m = 0xFF) ∧ j' = { j with e := j'.e } := by
  obtain ⟨B, pend, z, hb1, hb2, hb3, hb4, hcase⟩ := E.held
  rcases hcase with ⟨-, hz, hrem, hmk⟩ | ⟨-, -, -, hmk⟩
  · have hp : pend = [] := by
      have := congrArg List.length hb4
      rw [List.length_append, List.length_append, List.length_replicate, hz, show (bitsOf pend).length = 8 * pend.length from ?_] at this
      · exact List.eq_nil_of_length_eq_zero (by omega)
      · clear * -
        induction pend with
        | nil => rfl
        | cons a l ih => rw [jbits_cons, List.length_append, ih, show (msb a.toNat 8).length = 8 by simp [msb], List.length_cons]; omega
    rw [hp] at hrem
    have hrem : Ctx.rem j.e.s = 0xFF :: 0xD9 :: tail := hrem
    obtain ⟨s1, e1, n1⟩ := get8_cons E.ctx hrem
    obtain ⟨s2, e2, n2⟩ := get8_cons n1.ok n1.rem
    unfold afterScan junkAfter
    rw [if_pos hmk]
    unfold Ctx.fuel
    rw [show j.e.s.buf.length + j.e.s.file.length + 2 + 1 = (j.e.s.buf.length + j.e.s.file.length + 1) + 1 + 1 by omega, skipJunk]
    by_cases f1 : at_eof feof j.e.s = true
    · rw [if_pos f1]
      obtain ⟨s', e', n'⟩ := get_marker_cons (j := { j with e := { j.e with s := j.e.s, marker := 0xFF } }) E.ctx rfl (m := 0xD9) (by decide) hrem
      refine ⟨0xD9, Jst.at { j with e := { j.e with s := j.e.s, marker := 0xFF } } s', ?_, Or.inl rfl, ?_⟩
      · refine (bind_of_eq (a := { j with e := { j.e with s := j.e.s, marker := 0xFF } }) rfl _).trans ?_
        refine (bind_of_eq e' _).trans ?_
        dsimp only
        rw [if_neg (by decide)]
        rfl
      · rfl
    · rw [if_neg f1, e1]
      dsimp only
      rw [if_neg (by simp), skipJunk]
      by_cases f2 : at_eof feof s1 = true
      · rw [if_pos f2]
        refine ⟨0xFF, Jst.at { j with e := { j.e with s := s1, marker := 0xFF } } s2, ?_, Or.inr rfl, ?_⟩
        · refine (bind_of_eq (a := { j with e := { j.e with s := s1, marker := 0xFF } }) rfl _).trans ?_
          refine (bind_of_eq (a := (0xFF, Jst.at { j with e := { j.e with s := s1, marker := 0xFF } } s2)) ?_ _).trans ?_
          · unfold get_marker
            rw [if_neg (by simp)]
            dsimp only
            rw [e2, if_pos (by show (0xD9 : UInt8) ≠ 0xFF; decide)]
          · dsimp only
            rw [if_neg (by decide)]
            rfl
        · rfl
      · rw [if_neg f2, e2]
        dsimp only
        rw [if_pos (by decide)]
        refine ⟨0xD9, { j with e := { j.e with s := s2, marker := 0xFF } }, ?_, Or.inl rfl, ?_⟩
        · refine (bind_of_eq (a := { j with e := { j.e with s := s2, marker := 0xD9 } }) rfl _).trans ?_
          refine (bind_of_eq (a := (0xD9, { j with e := { j.e with s := s2, marker := 0xFF } })) ?_ _).trans ?_
          · unfold get_marker
            rw [if_pos (by simp)]
          · dsimp only
            rw [if_neg (by decide)]
            rfl
        · rfl
  · refine ⟨0xD9, { j with e := { j.e with marker := 0xFF } }, ?_, Or.inl rfl, rfl⟩
    unfold afterScan junkAfter get_marker
    rw [if_neg (by rw [hmk]; decide)]
    refine (bind_of_eq (a := j) rfl _).trans ?_
    rw [if_pos (by rw [hmk]; decide)]
    refine (bind_of_eq rfl _).trans ?_
    dsimp only
    rw [hmk, if_neg (by decide)]
    rfl

/-! ### The codes of the writer -/

theorem good_ydc : GoodCode (dcLumCodes.drop 1) dcLumValues := ⟨by decide +kernel, by decide +kernel, by decide +kernel, by decide +kernel⟩
theorem good_yac : GoodCode (acLumCodes.drop 1) acLumValues := ⟨by decide +kernel, by decide +kernel, by decide +kernel, by decide +kernel⟩
theorem good_uvdc : GoodCode (dcChromCodes.drop 1) dcChromValues := ⟨by decide +kernel, by decide +kernel, by decide +kernel, by decide +kernel⟩
theorem good_uvac : GoodCode (acChromCodes.drop 1) acChromValues := ⟨by decide +kernel, by decide +kernel, by decide +kernel, by decide +kernel⟩

/-- The sampling of a component. -/
def side (k : ℕ) : ℕ := if k = 0 then 2 else 1

/-- What is known of a component. -/
def unit420 (w h : ℕ) (ty tuv : List ℕ) (k : ℕ) : CU :=
  if k = 0 then ⟨codeList (dcLumCodes.drop 1) dcLumValues, codeList (acLumCodes.drop 1) acLumValues, ty, 2, 2, (w + 15) / 16 * 2 * 8,
    (w + 15) / 16 * 2 * 8 * ((h + 15) / 16 * 2 * 8)⟩
  else ⟨codeList (dcChromCodes.drop 1) dcChromValues, codeList (acChromCodes.drop 1) acChromValues, tuv, 1, 1, (w + 15) / 16 * 1 * 8,
    (w + 15) / 16 * 1 * 8 * ((h + 15) / 16 * 1 * 8)⟩

theorem units_for (w h : ℕ) (ty tuv : List ℕ) (yt uvt : List UInt8) : UnitsFor 3 (unit420 w h ty tuv) (scan3 yt uvt) := by
  refine ⟨rfl, fun k u hu => ?_⟩
  match k, hu with
  | 0, hu =>
    obtain rfl : _ = u := Option.some.inj hu
    exact ⟨mkCode_eq _ _, mkCode_eq _ _, rfl, rfl⟩
  | 1, hu =>
    obtain rfl : _ = u := Option.some.inj hu
    exact ⟨mkCode_eq _ _, mkCode_eq _ _, rfl, rfl⟩
  | 2, hu =>
    obtain rfl : _ = u := Option.some.inj hu
    exact ⟨mkCode_eq _ _, mkCode_eq _ _, rfl, rfl⟩
  | k + 3, hu => exact absurd hu (by simp [scan3])

/-- The file is decoded: the planes hold the blocks `ms`. -/
structure Decoded420 (w h : ℕ) (yt uvt : List UInt8) (ms : List (List (List (List Int)))) (j : Jst) : Prop where
  imgX : j.imgX = w
  imgY : j.imgY = h
  imgN : j.imgN = 3
  hMax : j.hMax = 2
  vMax : j.vMax = 2
  rgb : j.rgb = 0
  app14 : j.app14 = -1
  sequential : j.progressive = false
  comps : ∀ k < 3, ∃ c dq, j.comps[k]? = some c ∧ c.h = side k ∧ c.v = side k ∧ c.x = (w * side k + 1) / 2 ∧ c.y = (h * side k + 1) / 2 ∧
    c.w2 = (w + 15) / 16 * side k * 8 ∧ c.data.length = (w + 15) / 16 * side k * 8 * ((h + 15) / 16 * side k * 8) ∧
    (∀ p < 64, dq.getD (zagOf p) 0 = ((if k = 0 then yt else uvt).getD p 0).toNat) ∧
    ∀ q t l, q < (w + 15) / 16 * ((h + 15) / 16) → t < side k * side k → ((ms[q]?).bind fun b => (b[k]?).bind (·[t]?)) = some l →
      BlockCells c.data c.w2 (q / ((w + 15) / 16) * side k + t / side k) (q % ((w + 15) / 16) * side k + t % side k) dq l

/-- The coefficients stay in the range of the transform. -/
def Fit420 (yt uvt : List UInt8) (ms : List (List (List (List Int)))) : Prop :=
  ∀ b ∈ ms, ∀ (k : ℕ) (ls : List (List Int)), b[k]? = some ls → ∀ l ∈ ls, ∀ p < 64, |l.getD p 0 * (((if k = 0 then yt else uvt).getD p 0).toNat : ℕ)| ≤ 2300

theorem image_ok {feof : Ctx → Bool} {j : Jst} {w h : ℕ} (hw : w ≤ 65535) (hh : h ≤ 65535) {tail dat yt uvt : List UInt8}
    {ty tuv : List ℕ} {h0 h1 h2 h3 : JHuff} {f1 f3 : List Int}
    (hctx : CtxOk j.e.s) (hmk : j.e.marker = 0xFF) (hn : j.imgN = 3)
    (hr : Ctx.rem j.e.s = 0 :: 0xC :: 3 :: 1 :: 0 :: 2 :: 0x11 :: 3 :: 0x11 :: ([0, 0x3F, 0] ++ (stuff dat ++ 0xFF :: 0xD9 :: tail)))
    (hc : j.comps = [planed w h 1 2 0, planed w h 2 1 1, planed w h 3 1 1, JComp.zero]) (ho : j.order = List.replicate 4 0)
    (hX : j.mcuX = (w + 15) / 16) (hY : j.mcuY = (h + 15) / 16) (hrst : j.restart = 0)
    (i1 : j.imgX = w) (i2 : j.imgY = h) (i3 : j.hMax = 2) (i4 : j.vMax = 2) (i5 : j.rgb = 0) (i6 : j.app14 = -1) (i7 : j.progressive = false)
    (hdc : j.huffDc = [h0, h2, JHuff.zero, JHuff.zero]) (hac : j.huffAc = [h1, h3, JHuff.zero, JHuff.zero])
    (hfa : j.fastAc = [f1, f3, List.replicate 512 0, List.replicate 512 0]) (hdq : j.dequant = [ty, tuv, List.replicate 64 0, List.replicate 64 0])
    (t0 : tableOk h0 (codeList (dcLumCodes.drop 1) dcLumValues) = true) (t1 : tableOk h1 (codeList (acLumCodes.drop 1) acLumValues) = true)
    (t2 : tableOk h2 (codeList (dcChromCodes.drop 1) dcChromValues) = true) (t3 : tableOk h3 (codeList (acChromCodes.drop 1) acChromValues) = true)
    (k1 : facOk f1 h1 (codeList (acLumCodes.drop 1) acLumValues) = true) (k3 : facOk f3 h3 (codeList (acChromCodes.drop 1) acChromValues) = true)
    (lty : ty.length = 64) (ltuv : tuv.length = 64) (hty : ∀ p < 64, ty.getD (zagOf p) 0 = (yt.getD p 0).toNat)
    (htuv : ∀ p < 64, tuv.getD (zagOf p) 0 = (uvt.getD p 0).toNat) (hy1 : 1 ≤ (yt.getD 0 0).toNat) (huv1 : 1 ≤ (uvt.getD 0 0).toNat)
    {ms : List (List (List (List Int)))} {rest : List Bool}
    (hd : decodeMCUs (scan3 yt uvt) ((w + 15) / 16 * ((h + 15) / 16)) [0, 0, 0] (bitsOf dat) = some (ms, rest)) (hrest : rest.length < 8)
    (hfit : Fit420 yt uvt ms) (f : ℕ) :
    ∃ j', imageLoop feof (f + 2) 0xDA j = .ok (some j') ∧ Decoded420 w h yt uvt ms j' := by
  obtain ⟨s1, e1, n1⟩ := scan_header_ok hctx hn hr hc ho
  generalize ej : ({ (j.at s1) with order := [0, 1, 2, 0], comps := [coded w h 1 2 0, coded w h 2 1 1, coded w h 3 1 1, JComp.zero] } : Jst) = j1 at e1
  have hj1 : j1.e.s = s1 := by rw [← ej]; rfl
  have hc1 : j1.comps = [coded w h 1 2 0, coded w h 2 1 1, coded w h 3 1 1, JComp.zero] := by rw [← ej]
  have tabs : ∀ k < 3, ∃ c, j1.comps[k]? = some c ∧ CompTabs j1 c (unit420 w h ty tuv k) := by
    have hd1 : j1.huffDc = [h0, h2, JHuff.zero, JHuff.zero] := by rw [← ej]; exact hdc
    have ha1 : j1.huffAc = [h1, h3, JHuff.zero, JHuff.zero] := by rw [← ej]; exact hac
    have hf1 : j1.fastAc = [f1, f3, List.replicate 512 0, List.replicate 512 0] := by rw [← ej]; exact hfa
    have hq1 : j1.dequant = [ty, tuv, List.replicate 64 0, List.replicate 64 0] := by rw [← ej]; exact hdq
    have z0 : zagOf 0 = 0 := by decide
    have y0 := hty 0 (by norm_num)
    have v0 := htuv 0 (by norm_num)
    rw [z0] at y0 v0
    have s0 : ∀ e ∈ codeList (dcLumCodes.drop 1) dcLumValues, e.2 ≤ 15 := by decide +kernel
    have s1 : ∀ e ∈ codeList (dcChromCodes.drop 1) dcChromValues, e.2 ≤ 15 := by decide +kernel
    intro k hk
    match k, hk with
    | 0, _ =>
      refine ⟨coded w h 1 2 0, by rw [hc1]; rfl, ⟨⟨h0, by rw [hd1]; rfl, t0⟩, ⟨h1, f1, by rw [ha1]; rfl, t1, by rw [hf1]; rfl, k1⟩, by rw [hq1]; rfl, s0, lty,
        by show 1 ≤ ty.getD 0 0; omega, rfl, rfl, rfl, List.length_replicate⟩⟩
    | 1, _ =>
      refine ⟨coded w h 2 1 1, by rw [hc1]; rfl, ⟨⟨h2, by rw [hd1]; rfl, t2⟩, ⟨h3, f3, by rw [ha1]; rfl, t3, by rw [hf1]; rfl, k3⟩, by rw [hq1]; rfl, s1, ltuv,
        by show 1 ≤ tuv.getD 0 0; omega, rfl, rfl, rfl, List.length_replicate⟩⟩
    | 2, _ =>
      refine ⟨coded w h 3 1 1, by rw [hc1]; rfl, ⟨⟨h2, by rw [hd1]; rfl, t2⟩, ⟨h3, f3, by rw [ha1]; rfl, t3, by rw [hf1]; rfl, k3⟩, by rw [hq1]; rfl, s1, ltuv,
        by show 1 ≤ tuv.getD 0 0; omega, rfl, rfl, rfl, List.length_replicate⟩⟩
  have hsmall : (w + 15) / 16 * ((h + 15) / 16) < 0x7FFFFFFE := by
    have A : (w + 15) / 16 ≤ 4096 := by omega
    have B : (h + 15) / 16 ≤ 4096 := by omega
    have := Nat.mul_le_mul A B
    omega
  have hw2 : ∀ k < 3, (unit420 w h ty tuv k).w2 = (w + 15) / 16 * (unit420 w h ty tuv k).h * 8 := by
    intro k _
    unfold unit420
    split <;> rfl
  have hlen : ∀ k < 3, (w + 15) / 16 * (unit420 w h ty tuv k).h * 8 * ((h + 15) / 16 * (unit420 w h ty tuv k).v * 8) ≤ (unit420 w h ty tuv k).len := by
    intro k _
    unfold unit420
    split <;> exact le_rfl
  have hfit' : ∀ b ∈ ms, CoefsFit (unit420 w h ty tuv) b := by
    intro b hb k ls hls l hl p hp
    have := hfit b hb k ls hls l hl p hp
    unfold unit420
    by_cases hk : k = 0
    · rw [if_pos hk] at this ⊢
      rw [hty p hp]
      exact this
    · rw [if_neg hk] at this ⊢
      rw [htuv p hp]
      exact this
  obtain ⟨j2, e2, same, preds, S⟩ := parse_entropy_ok (m := 0xD9) (tail := tail) (X := (w + 15) / 16) (Y := (h + 15) / 16) (n := 3) (U := unit420 w h ty tuv)
    (by decide) (by decide) (by decide) hw2 hlen (units_for w h ty tuv yt uvt) (j := j1) (data := dat) (rest := rest) (by rw [hj1]; exact n1.ok)
    (by rw [hj1]; exact n1.rem) (by rw [← ej]; exact hrst) (by rw [← ej]; exact hX) (by rw [← ej]; exact hY) hsmall tabs
    (by
      intro k hk
      rw [← ej]
      match k, hk with
      | 0, _ => rfl
      | 1, _ => rfl
      | 2, _ => rfl) hd hfit'
  obtain ⟨m, j3, e3, hm, same3⟩ := afterScan_ok (feof := feof) S.ent hrest
  refine ⟨j3, ?_, ?_⟩
  · rw [show f + 2 = f + 1 + 1 from rfl, imageLoop, if_neg (by decide), if_pos rfl]
    refine (bind_of_eq e1 _).trans ?_
    dsimp only
    refine (bind_of_eq e2 _).trans ?_
    dsimp only
    refine (bind_of_eq e3 _).trans ?_
    dsimp only
    rw [imageLoop]
    rcases hm with rfl | rfl
    · rw [if_pos rfl]; rfl
    · rw [if_neg (by decide), if_neg (by decide), if_neg (by decide)]
      refine (bind_of_eq (a := none) ?_ _).trans rfl
      unfold process_marker
      rw [if_pos rfl]
      rfl
  · have R := same.rest
    have R3 : j3 = { j1 with e := j3.e, comps := j2.comps, todo := j2.todo } := by
      rw [same3, R]
    have C3 : j3.comps = j2.comps := by rw [same3]
    refine ⟨?_, ?_, ?_, ?_, ?_, ?_, ?_, ?_, ?_⟩
    · rw [R3, ← ej]; exact i1
    · rw [R3, ← ej]; exact i2
    · rw [R3, ← ej]; exact hn
    · rw [R3, ← ej]; exact i3
    · rw [R3, ← ej]; exact i4
    · rw [R3, ← ej]; exact i5
    · rw [R3, ← ej]; exact i6
    · rw [R3, ← ej]; exact i7
    · intro k hk
      obtain ⟨c, hc2, T, -, -, cells⟩ := S.comps k hk
      have strip : ∀ c0, j1.comps[k]? = some c0 → JComp.strip c = JComp.strip c0 := by
        intro c0 h0
        have := congrArg (fun l => l[k]?) same.comps
        rw [List.getElem?_map, List.getElem?_map, hc2, h0] at this
        exact Option.some.inj this
      have hx : ∀ c0, JComp.strip c = JComp.strip c0 → c.x = c0.x ∧ c.y = c0.y := fun c0 h0 => ⟨show (JComp.strip c).x = (JComp.strip c0).x from congrArg JComp.x h0, show (JComp.strip c).y = (JComp.strip c0).y from congrArg JComp.y h0⟩
      refine ⟨c, (unit420 w h ty tuv k).dq, by rw [C3]; exact hc2, ?_⟩
      rw [T.hh, T.vv, T.ww, T.ll]
      have hsz : (unit420 w h ty tuv k).h = side k ∧ (unit420 w h ty tuv k).v = side k ∧ (unit420 w h ty tuv k).w2 = (w + 15) / 16 * side k * 8 ∧
          (unit420 w h ty tuv k).len = (w + 15) / 16 * side k * 8 * ((h + 15) / 16 * side k * 8) := by
        unfold unit420 side
        split <;> exact ⟨rfl, rfl, rfl, rfl⟩
      obtain ⟨z1, z2, z3, z4⟩ := hsz
      rw [z1, z2] at cells
      refine ⟨z1, z2, ?_, ?_, z3, z4, ?_, cells⟩
      · rcases three_cases hk with rfl | rfl | rfl
        · exact (hx (coded w h 1 2 0) (strip _ (by rw [hc1]; rfl))).1.trans (show (w * 2 + 2 - 1) / 2 = (w * 2 + 1) / 2 by omega)
        · exact (hx (coded w h 2 1 1) (strip _ (by rw [hc1]; rfl))).1.trans (show (w * 1 + 2 - 1) / 2 = (w * 1 + 1) / 2 by omega)
        · exact (hx (coded w h 3 1 1) (strip _ (by rw [hc1]; rfl))).1.trans (show (w * 1 + 2 - 1) / 2 = (w * 1 + 1) / 2 by omega)
      · rcases three_cases hk with rfl | rfl | rfl
        · exact (hx (coded w h 1 2 0) (strip _ (by rw [hc1]; rfl))).2.trans (show (h * 2 + 2 - 1) / 2 = (h * 2 + 1) / 2 by omega)
        · exact (hx (coded w h 2 1 1) (strip _ (by rw [hc1]; rfl))).2.trans (show (h * 1 + 2 - 1) / 2 = (h * 1 + 1) / 2 by omega)
        · exact (hx (coded w h 3 1 1) (strip _ (by rw [hc1]; rfl))).2.trans (show (h * 1 + 2 - 1) / 2 = (h * 1 + 1) / 2 by omega)
      · intro p hp
        unfold unit420
        by_cases hk0 : k = 0
        · rw [if_pos hk0, if_pos hk0]; exact hty p hp
        · rw [if_neg hk0, if_neg hk0]; exact htuv p hp

/-! ### The whole file -/

theorem header_step {feof : Ctx → Bool} {m : ℕ} {m' : UInt8} {j j1 : Jst} (hm : ¬ (m = 0xC0 ∨ m = 0xC1 ∨ m = 0xC2)) (h1 : process_marker j m = .ok (some j1))
    (hctx : CtxOk j1.e.s) (hmk : j1.e.marker = 0xFF) {l : List UInt8} (hm' : m' ≠ 0xFF) (hr : Ctx.rem j1.e.s = 0xFF :: m' :: l) (n : ℕ) :
    ∃ s', headerLoop feof (n + 1) m j = headerLoop feof n m'.toNat (j1.at s') ∧ Next j1.e.s s' l := by
  obtain ⟨s', e, nx⟩ := get_marker_cons hctx hmk hm' hr
  refine ⟨s', ?_, nx⟩
  have hne : m'.toNat ≠ 0xFF := fun h => hm' (by rw [← UInt8.toNat_inj]; exact h)
  rw [headerLoop, if_neg hm]
  refine (bind_of_eq h1 _).trans ?_
  dsimp only
  refine (bind_of_eq e _).trans ?_
  dsimp only
  refine (bind_of_eq (a := (m'.toNat, j1.at s')) ?_ _).trans ?_
  · rw [whileFuel_stop (s' := (m'.toNat, j1.at s'))]
    dsimp only
    rw [if_neg hne]
    rfl
  · dsimp only
    rw [if_neg hne]

/-- The file of the writer is decoded. -/
theorem decode_420 {mem : JpegMem} (hmem : ∀ i, mem.plane i = true) {feof : Ctx → Bool} {s : Ctx} {w h : ℕ} (hw : w ≤ 65535) (hh : h ≤ 65535) (w1 : 1 ≤ w)
    (h1 : 1 ≤ h) (hwh : w * h * 4 ≤ 2147483647) {yt uvt dat tail : List UInt8} (lyt : yt.length = 64) (luvt : uvt.length = 64) (hctx : CtxOk s)
    (hr : Ctx.rem s = jpgHead w h yt uvt ++ (stuff dat ++ 0xFF :: 0xD9 :: tail)) (hy1 : 1 ≤ (yt.getD 0 0).toNat) (huv1 : 1 ≤ (uvt.getD 0 0).toNat)
    {ms : List (List (List (List Int)))} {rest : List Bool}
    (hd : decodeMCUs (scan3 yt uvt) ((w + 15) / 16 * ((h + 15) / 16)) [0, 0, 0] (bitsOf dat) = some (ms, rest)) (hrest : rest.length < 8)
    (hfit : Fit420 yt uvt ms) :
    ∃ j', decode_jpeg_image mem feof (Jst.start s) = .ok (some j') ∧ Decoded420 w h yt uvt ms j' := by
  have hr : Ctx.rem s = 0xFF :: 0xD8 :: 0xFF :: 0xE0 :: 0 :: 0x10 :: ([74, 70, 73, 70, 0, 1, 1, 0, 0, 1, 0, 1, 0, 0] ++
    (0xFF :: 0xDB :: 0 :: 0x84 :: 0 :: (yt ++ (1 :: (uvt ++
    (0xFF :: 0xC0 :: 0 :: 0x11 :: 8 :: u8 (h / 256) :: u8 h :: u8 (w / 256) :: u8 w :: 3 :: ([1, 0x22, 0, 2, 0x11, 1, 3, 0x11, 1] ++
    (0xFF :: 0xC4 :: 0x01 :: 0xA2 :: 0 :: (dcLumCodes.drop 1 ++ (dcLumValues ++ (0x10 :: (acLumCodes.drop 1 ++ (acLumValues ++
      (1 :: (dcChromCodes.drop 1 ++ (dcChromValues ++ (0x11 :: (acChromCodes.drop 1 ++ (acChromValues ++
    (0xFF :: 0xDA :: 0 :: 0xC :: 3 :: 1 :: 0 :: 2 :: 0x11 :: 3 :: 0x11 :: ([0, 0x3F, 0] ++ (stuff dat ++ 0xFF :: 0xD9 :: tail)))))))))))))))))))))) := by
    rw [hr]
    simp only [jpgHead, List.append_assoc, List.cons_append, List.nil_append]
  obtain ⟨s1, e1, n1⟩ := get_marker_cons (j := { Jst.start s with restart := 0, jfif := false, app14 := -1, e := { (Jst.start s).e with marker := 0xFF } }) hctx rfl
    (by decide) hr
  generalize ej1 : (Jst.at { Jst.start s with restart := 0, jfif := false, app14 := -1, e := { (Jst.start s).e with marker := 0xFF } } s1) = j1 at e1
  have hj1 : j1.e.s = s1 := by rw [← ej1]; rfl
  obtain ⟨s2, e2, n2⟩ := get_marker_cons (j := j1) (m := 0xE0) (by rw [hj1]; exact n1.ok) (by rw [← ej1]; rfl) (by decide) (by rw [hj1]; exact n1.rem)
  obtain ⟨s3, e3, n3⟩ := app_ok (j := j1.at s2) n2.ok n2.rem
  obtain ⟨s4, e4, n4⟩ := header_step (feof := feof) (by decide) e3 n3.ok (by rw [← ej1]; rfl) (by decide) n3.rem (s2.buf.length + s2.file.length + 2)
  obtain ⟨s5, ty, tuv, e5, n5, lty, ltuv, hty, htuv⟩ := dqt_ok (j := Jst.at { (Jst.at (j1.at s2) s3) with jfif := true } s4) n4.ok lyt luvt n4.rem (by rw [← ej1]; rfl)
  obtain ⟨s6, e6, n6⟩ := header_step (feof := feof) (by decide) e5 n5.ok (by rw [← ej1]; rfl) (by decide) n5.rem (s2.buf.length + s2.file.length + 1)
  generalize ej6 : (Jst.at { (Jst.at (Jst.at { (Jst.at (j1.at s2) s3) with jfif := true } s4) s5) with dequant := [ty, tuv, List.replicate 64 0, List.replicate 64 0] } s6) = j6 at e6
  have hj6 : j6.e.s = s6 := by rw [← ej6]; rfl
  obtain ⟨s7, e7, n7⟩ := frame_ok hmem (j := j6) (by rw [hj6]; exact n6.ok) hw hh w1 h1 hwh (by rw [hj6]; exact n6.rem) (by rw [← ej6, ← ej1]; rfl)
  generalize ej7 : ({ (j6.at s7) with imgX := w, imgY := h, imgN := 3, rgb := 0, hMax := 2, vMax := 2, mcuX := (w + 15) / 16, mcuY := (h + 15) / 16, comps := [planed w h 1 2 0, planed w h 2 1 1, planed w h 3 1 1, JComp.zero] } : Jst) = j7 at e7
  have hj7 : j7.e.s = s7 := by rw [← ej7]; rfl
  obtain ⟨s8, e8, n8⟩ := get_marker_cons (j := j7) (m := 0xC4) (by rw [hj7]; exact n7.ok) (by rw [← ej7, ← ej6, ← ej1]; rfl) (by decide) (by rw [hj7]; exact n7.rem)
  obtain ⟨s9, h0, h1', h2, h3, f1, f3, e9, n9, t0, t1, t2, t3, k1, k3⟩ := dht_ok (j := j7.at s8) n8.ok good_ydc good_yac good_uvdc good_uvac (by decide +kernel) n8.rem
    (by rw [← ej7, ← ej6, ← ej1]; rfl) (by rw [← ej7, ← ej6, ← ej1]; rfl) (by rw [← ej7, ← ej6, ← ej1]; rfl)
  generalize ej9 : ({ (Jst.at (j7.at s8) s9) with huffDc := [h0, h2, JHuff.zero, JHuff.zero], huffAc := [h1', h3, JHuff.zero, JHuff.zero], fastAc := [f1, f3, List.replicate 512 0, List.replicate 512 0] } : Jst) = j9 at e9
  have hj9 : j9.e.s = s9 := by rw [← ej9]; rfl
  obtain ⟨s10, e10, n10⟩ := get_marker_cons (j := j9) (m := 0xDA) (by rw [hj9]; exact n9.ok) (by rw [← ej9, ← ej7, ← ej6, ← ej1]; rfl) (by decide) (by rw [hj9]; exact n9.rem)
  obtain ⟨j', e11, D⟩ := image_ok (feof := feof) (j := j9.at s10) hw hh (ty := ty) (tuv := tuv) (h0 := h0) (h1 := h1') (h2 := h2) (h3 := h3) (f1 := f1) (f3 := f3)
    n10.ok (by rw [← ej9, ← ej7, ← ej6, ← ej1]; rfl) (by rw [← ej9, ← ej7]; rfl) n10.rem
    (by rw [← ej9, ← ej7]; rfl) (by rw [← ej9, ← ej7, ← ej6, ← ej1]; rfl) (by rw [← ej9, ← ej7]; rfl) (by rw [← ej9, ← ej7]; rfl)
    (by rw [← ej9, ← ej7, ← ej6, ← ej1]; rfl) (by rw [← ej9, ← ej7]; rfl) (by rw [← ej9, ← ej7]; rfl) (by rw [← ej9, ← ej7]; rfl) (by rw [← ej9, ← ej7]; rfl)
    (by rw [← ej9, ← ej7]; rfl) (by rw [← ej9, ← ej7, ← ej6, ← ej1]; rfl) (by rw [← ej9, ← ej7, ← ej6, ← ej1]; rfl) (by rw [← ej9]; rfl) (by rw [← ej9]; rfl) (by rw [← ej9]; rfl)
    (by rw [← ej9, ← ej7, ← ej6]; rfl) t0 t1 t2 t3 k1 k3 lty ltuv hty htuv hy1 huv1 hd hrest hfit (s8.buf.length + s8.file.length)
  refine ⟨j', ?_, D⟩
  unfold decode_jpeg_image
  refine (bind_of_eq e1 _).trans ?_
  dsimp only
  rw [if_neg (by decide)]
  refine (bind_of_eq e2 _).trans ?_
  dsimp only
  refine (bind_of_eq (a := some (0xC0, j6)) ?_ _).trans ?_
  · refine e4.trans (e6.trans ?_)
    rw [headerLoop, if_pos (by decide)]
    rfl
  dsimp only
  rw [if_neg (by decide)]
  refine (bind_of_eq e7 _).trans ?_
  dsimp only
  refine (bind_of_eq e8 _).trans ?_
  dsimp only
  refine Eq.trans ?_ e11
  show imageLoop feof (s8.buf.length + s8.file.length + 2 + 1) (0xC4 : UInt8).toNat (j7.at s8) = _
  rw [imageLoop, if_neg (by decide), if_neg (by decide), if_neg (by decide)]
  refine (bind_of_eq e9 _).trans ?_
  dsimp only
  exact bind_of_eq e10 _

end FlatCV
