import Verif.Lemmas.PngRaw
/-
The JPEG decoder: the segments before the scan.
-/
import Verif.Lemmas.JpegReadScan
import Verif.Lemmas.JpegFile

namespace FlatCV
open Model Jpg

/-! ### Bytes -/

theorem get8_cons {s : Ctx} (h : CtxOk s) {b : UInt8} {l : List UInt8} (hr : Ctx.rem s = b :: l) : ∃ s', get8 s = (b, s') ∧ Next s s' l := by
  obtain ⟨h1, h2⟩ := get8_next h
  rw [hr] at h1 h2
  exact ⟨(get8 s).2, Prod.ext h1 rfl, h2⟩

theorem get16_cons {s : Ctx} (h : CtxOk s) {a b : UInt8} {l : List UInt8} (hr : Ctx.rem s = a :: b :: l) :
    ∃ s', get16be s = (a.toNat * 256 + b.toNat, s') ∧ Next s s' l := by
  obtain ⟨h1, h2⟩ := get16_next h
  rw [hr] at h1 h2
  exact ⟨(get16be s).2, Prod.ext h1 rfl, h2⟩

theorem takeBytes_app {l1 l2 : List UInt8} : ∀ {s : Ctx}, CtxOk s → Ctx.rem s = l1 ++ l2 →
    ∃ s', takeBytes l1.length s = (l1.map (·.toNat), s') ∧ Next s s' l2 := by
  induction l1 with
  | nil => intro s h hr; exact ⟨s, rfl, h, rfl, hr⟩
  | cons a l ih =>
    intro s h hr
    obtain ⟨s1, e1, n1⟩ := get8_cons h hr
    obtain ⟨s2, e2, n2⟩ := ih n1.ok n1.rem
    refine ⟨s2, ?_, n1.trans n2⟩
    rw [List.length_cons, takeBytes, e1]
    dsimp only
    rw [e2]
    rfl

theorem get_marker_cons {j : Jst} (h : CtxOk j.e.s) (hm : j.e.marker = 0xFF) {m : UInt8} (hff : m ≠ 0xFF) {l : List UInt8}
    (hr : Ctx.rem j.e.s = 0xFF :: m :: l) : ∃ s', get_marker j = .ok (m.toNat, j.at s') ∧ Next j.e.s s' l := by
  obtain ⟨s1, e1, n1⟩ := get8_cons h hr
  obtain ⟨s2, e2, n2⟩ := get8_cons n1.ok n1.rem
  refine ⟨s2, ?_, n1.trans n2⟩
  unfold get_marker
  rw [if_neg (by rw [hm]; simp), e1, if_neg (by simp)]
  dsimp only
  unfold Ctx.fuel
  rw [show j.e.s.buf.length + j.e.s.file.length + 2 = (j.e.s.buf.length + j.e.s.file.length + 1) + 1 by omega, afterFF, if_neg (by rw [e2]; exact hff), ok_bind, e2]
  rfl

/-! ### Quantisation tables -/

theorem dqtTable_ok {j : Jst} (h : CtxOk j.e.s) {q : UInt8} (hq : q.toNat < 4) {vals l : List UInt8} (hv : vals.length = 64)
    (hr : Ctx.rem j.e.s = q :: (vals ++ l)) (hl : ∃ old, j.dequant[q.toNat]? = some old ∧ old.length = 64) :
    ∃ s' tab, dqtTable j = .ok (some ({ (j.at s') with dequant := j.dequant.set q.toNat tab }, false)) ∧ Next j.e.s s' l ∧ tab.length = 64 ∧
      ∀ p < 64, tab.getD (zagOf p) 0 = (vals.getD p 0).toNat := by
  obtain ⟨old, ho, hol⟩ := hl
  obtain ⟨s1, e1, n1⟩ := get8_cons h hr
  obtain ⟨s2, e2, n2⟩ := takeBytes_app n1.ok n1.rem
  rw [hv] at e2
  have key : Ok (forN 64 old fun i tab => do
      let z ← rdIn jpgZag i
      let v ← rdIn (vals.map (·.toNat)) i
      wrIn tab z v) fun tab => tab.length = 64 ∧ ∀ p < 64, tab.getD (zagOf p) 0 = (vals.getD p 0).toNat := by
    refine forN_ok (fun n (tab : List Nat) => tab.length = 64 ∧ ∀ p < n, tab.getD (zagOf p) 0 = (vals.getD p 0).toNat) ⟨hol, fun p hp => absurd hp (Nat.not_lt_zero _)⟩ ?_
    rintro i hi tab ⟨tl, ht⟩
    have hvi : (vals.map (·.toNat))[i]? = some (vals.getD i 0).toNat := by
      rw [List.getElem?_map, List.getD_eq_getElem?_getD, List.getElem?_eq_getElem (by omega)]
      rfl
    have hz := zagOf_lt i hi
    rw [rdIn_ok (zag_get i hi), ok_bind, rdIn_ok hvi, ok_bind]
    unfold wrIn
    rw [if_pos (by omega)]
    refine Ok.of_eq rfl ⟨by rw [List.length_set, tl], fun p hp => ?_⟩
    rw [List.getD_eq_getElem?_getD]
    by_cases hpi : p = i
    · subst hpi
      rw [List.getElem?_set_self (by omega)]
      rfl
    · rw [List.getElem?_set_ne (fun e => hpi (zagOf_inj p (by omega) i hi e.symm)), ← List.getD_eq_getElem?_getD]
      exact ht p (by omega)
  obtain ⟨tab, et, t1, t2⟩ := key
  refine ⟨s2, tab, ?_, n1.trans n2, t1, t2⟩
  unfold dqtTable
  rw [e1]
  dsimp only
  rw [Nat.div_eq_of_lt (by omega), Nat.mod_eq_of_lt (by omega : q.toNat < 16), if_neg (by simp), if_neg (by omega), if_neg (by simp), e2]
  dsimp only
  rw [rdIn_ok ho, ok_bind, et, ok_bind]
  unfold wrIn
  rw [if_pos (List.getElem?_eq_some_iff.1 ho).1, ok_bind]
  rfl

theorem dqt_ok {j : Jst} (h : CtxOk j.e.s) {yt uvt l : List UInt8} (hy : yt.length = 64) (huv : uvt.length = 64)
    (hr : Ctx.rem j.e.s = 0 :: 0x84 :: 0 :: (yt ++ (1 :: (uvt ++ l)))) (hd : j.dequant = List.replicate 4 (List.replicate 64 0)) :
    ∃ s' ty tuv, process_marker j 0xDB = .ok (some { (j.at s') with dequant := [ty, tuv, List.replicate 64 0, List.replicate 64 0] }) ∧ Next j.e.s s' l ∧
      ty.length = 64 ∧ tuv.length = 64 ∧ (∀ p < 64, ty.getD (zagOf p) 0 = (yt.getD p 0).toNat) ∧ ∀ p < 64, tuv.getD (zagOf p) 0 = (uvt.getD p 0).toNat := by
  obtain ⟨s1, e1, n1⟩ := get16_cons h hr
  obtain ⟨s2, ty, e2, n2, t1, t2⟩ := dqtTable_ok (j := j.at s1) n1.ok (q := 0) (by decide) hy n1.rem ⟨List.replicate 64 0, by show j.dequant[0]? = _; rw [hd]; rfl, List.length_replicate⟩
  obtain ⟨s3, tuv, e3, n3, t3, t4⟩ := dqtTable_ok (j := { ((j.at s1).at s2) with dequant := (j.at s1).dequant.set (0 : UInt8).toNat ty }) n2.ok (q := 1) (by decide) huv n2.rem
    ⟨List.replicate 64 0, by show (j.dequant.set 0 ty)[1]? = _; rw [hd]; rfl, List.length_replicate⟩
  refine ⟨s3, ty, tuv, ?_, (n1.trans n2).trans n3, t1, t3, t2, t4⟩
  unfold process_marker
  rw [if_neg (by decide), if_neg (by decide), if_pos rfl, e1]
  dsimp only
  rw [show (0 : UInt8).toNat * 256 + (0x84 : UInt8).toNat = 132 by decide, show 132 + 1 = 130 + 1 + 1 + 1 by rfl, dqtLoop, if_pos (by decide), e2, ok_bind]
  dsimp only
  rw [dqtLoop, if_pos (by decide), e3, ok_bind]
  dsimp only
  rw [dqtLoop, if_neg (by decide), if_pos (by decide)]
  have : (j.dequant.set 0 ty).set 1 tuv = [ty, tuv, List.replicate 64 0, List.replicate 64 0] := by rw [hd]; rfl
  rw [← this]
  rfl

/-! ### Huffman tables -/

/-- A table before it is built has the sizes of its arrays. -/
structure Blank (h : JHuff) : Prop where
  ls : h.size.length = 257
  lc : h.code.length = 256
  lv : h.values.length = 256
  lm : h.maxcode.length = 18
  ld : h.delta.length = 17

theorem JHuff.zero_blank : Blank JHuff.zero := by constructor <;> exact List.length_replicate

theorem sizesFrom_length (n : Nat) (cs : List Nat) : (sizesFrom n cs).length = cs.sum := by
  induction cs generalizing n with
  | nil => rfl
  | cons c cs ih => rw [sizesFrom, List.length_append, List.length_replicate, ih, List.sum_cons]

/-- A code that the decoder accepts. -/
structure GoodCode (counts vals : List UInt8) : Prop where
  lc : counts.length = 16
  lv : vals.length = (counts.map (·.toNat)).sum
  few : vals.length ≤ 255
  fits : ∀ w ∈ numWords 0 0 (sizesFrom 0 (counts.map (·.toNat))), w.1 < 2 ^ w.2

/-- The list of words and values. -/
def codeList (counts vals : List UInt8) : List ((Nat × Nat) × Nat) := numCode (counts.map (·.toNat)) (vals.map (·.toNat))

theorem values_ok {h : JHuff} {vals : List UInt8} (hv : h.values.length = 256) (hl : vals.length ≤ 255) :
    ∃ v, forN vals.length h.values (fun i v => do
      let x ← rdIn (vals.map (·.toNat)) i
      wrIn v i x) = .ok v ∧ v.length = 256 ∧ ∀ (i x : Nat), (vals.map (·.toNat))[i]? = some x → v[i]? = some x := by
  have key : Ok (forN vals.length h.values (fun i v => do
      let x ← rdIn (vals.map (·.toNat)) i
      wrIn v i x)) fun v => v.length = 256 ∧ ∀ (i x : Nat), i < vals.length → (vals.map (·.toNat))[i]? = some x → v[i]? = some x := by
    refine forN_ok (fun n (v : List Nat) => v.length = 256 ∧ ∀ (i x : Nat), i < n → (vals.map (·.toNat))[i]? = some x → v[i]? = some x) ⟨hv, fun i x hi => absurd hi (Nat.not_lt_zero _)⟩ ?_
    rintro i hi v ⟨vl, hv⟩
    obtain ⟨x, hx⟩ : ∃ x, (vals.map (·.toNat))[i]? = some x := ⟨_, List.getElem?_eq_getElem (by rw [List.length_map]; exact hi)⟩
    rw [rdIn_ok hx, ok_bind]
    unfold wrIn
    rw [if_pos (by omega)]
    refine Ok.of_eq rfl ⟨by rw [List.length_set, vl], fun i' x' hi' hx' => ?_⟩
    by_cases he : i' = i
    · subst he
      rw [List.getElem?_set_self (by omega), ← hx, hx']
    · rw [List.getElem?_set_ne (Ne.symm he)]
      exact hv i' x' (by omega) hx'
  obtain ⟨v, e, h1, h2⟩ := key
  refine ⟨v, e, h1, fun i x hx => h2 i x ?_ hx⟩
  have := (List.getElem?_eq_some_iff.1 hx).1
  rwa [List.length_map] at this

theorem dhtTable_ok {j : Jst} (h : CtxOk j.e.s) {tc th : Nat} {q : UInt8} (hq : q.toNat = tc * 16 + th) (htc : tc ≤ 1) (hth : th ≤ 3)
    {counts vals l : List UInt8} (G : GoodCode counts vals) (hr : Ctx.rem j.e.s = q :: (counts ++ (vals ++ l)))
    (hb : ∃ h0, (if tc = 0 then j.huffDc else j.huffAc)[th]? = some h0 ∧ Blank h0) (hf : j.fastAc.length = 4) :
    ∃ s' h' fac, dhtTable j = .ok (some (if tc = 0 then { (j.at s') with huffDc := j.huffDc.set th h' } else
        { (j.at s') with huffAc := j.huffAc.set th h', fastAc := j.fastAc.set th fac }, vals.length)) ∧
      Next j.e.s s' l ∧ tableOk h' (codeList counts vals) = true ∧ facOk fac h' (codeList counts vals) = true := by
  obtain ⟨h0, hh0, B⟩ := hb
  obtain ⟨s1, e1, n1⟩ := get8_cons h hr
  obtain ⟨s2, e2, n2⟩ := takeBytes_app n1.ok n1.rem
  obtain ⟨s3, e3, n3⟩ := takeBytes_app n2.ok n2.rem
  rw [G.lc] at e2
  have hsum : (sizesFrom 0 (counts.map (·.toNat))).length = vals.length := by rw [sizesFrom_length, G.lv]
  have hc16 : (counts.map (·.toNat)).length = 16 := by rw [List.length_map, G.lc]
  obtain ⟨h1, b1, b2, T⟩ := build_huffman_ok (h := h0) hc16 (by rw [hsum]; exact G.few) G.fits B.ls B.lc B.lm B.ld
  obtain ⟨v, v1, v2, v3⟩ := values_ok (h := h1) (vals := vals) (by rw [b2]; exact B.lv) G.few
  have T' : TableFor { h1 with values := v } (sizesFrom 0 (counts.map (·.toNat))) := ⟨T.size, T.done, T.short, T.cells, T.lf, T.ls⟩
  have h256 : ∀ x ∈ vals.map (·.toNat), x < 256 := by
    intro x hx
    obtain ⟨b, _, rfl⟩ := List.mem_map.1 hx
    exact b.toNat_lt
  have ht := tableFor_ok (h := { h1 with values := v }) (counts := counts.map (·.toNat)) (vals := vals.map (·.toNat)) (by rw [hsum]; exact G.few) hc16 G.fits T' v3 h256
  have hcl : (codeList counts vals).length = vals.length := by
    unfold codeList numCode
    rw [← sizesFrom_eq, List.length_zip, numWords_length, hsum, List.length_map, min_self]
  have hcell : ∀ i ∈ h1.fast, i = 255 ∨ i < (codeList counts vals).length := by
    intro i hi
    obtain ⟨c, hc⟩ := List.mem_iff_getElem?.1 hi
    have hc5 : c < 512 := by have := (List.getElem?_eq_some_iff.1 hc).1; rw [T.lf] at this; exact this
    rcases T.cells c hc5 with h5 | ⟨i', w, hw, _, _, hi'⟩
    · rw [hc, Option.some.injEq] at h5
      exact Or.inl h5
    · rw [hc, Option.some.injEq] at hi'
      subst hi'
      right
      rw [hcl, ← hsum, ← numWords_length 0 0]
      exact (List.getElem?_eq_some_iff.1 hw).1
  obtain ⟨fac, f1, f2⟩ := fast_ac_ok (h := { h1 with values := v }) v2 T.ls T.lf (fun i hi => by
    rcases hcell i hi with h | h
    · omega
    · rw [hcl] at h; have := G.few; omega)
  have hfo := facVal_ok (h := { h1 with values := v }) (t := codeList counts vals) ht T.lf hcell f2
  refine ⟨s3, { h1 with values := v }, fac, ?_, (n1.trans n2).trans n3, ht, hfo⟩
  unfold dhtTable
  rw [e1]
  dsimp only
  rw [show q.toNat / 16 = tc by omega, show q.toNat % 16 = th by omega, if_neg (by omega), e2]
  dsimp only
  rw [← G.lv, if_neg (by have := G.few; omega), rdIn_ok hh0, ok_bind, b1, ok_bind]
  dsimp only
  rw [e3]
  dsimp only
  rw [v1, ok_bind]
  unfold wrIn
  by_cases h0 : tc = 0
  · rw [if_pos h0] at hh0
    rw [if_pos h0, if_pos h0, if_pos (List.getElem?_eq_some_iff.1 hh0).1, ok_bind]
    rfl
  · rw [if_neg h0] at hh0
    rw [if_neg h0, if_neg h0, if_pos (List.getElem?_eq_some_iff.1 hh0).1, ok_bind, f1, ok_bind, if_pos (by omega), ok_bind]
    rfl

theorem dht_ok {j : Jst} (h : CtxOk j.e.s) {c0 v0 c1 v1 c2 v2 c3 v3 l : List UInt8} (G0 : GoodCode c0 v0) (G1 : GoodCode c1 v1) (G2 : GoodCode c2 v2) (G3 : GoodCode c3 v3)
    {a b : UInt8} (hab : a.toNat * 256 + b.toNat = 2 + (17 + v0.length) + (17 + v1.length) + (17 + v2.length) + (17 + v3.length))
    (hr : Ctx.rem j.e.s = a :: b :: 0 :: (c0 ++ (v0 ++ (0x10 :: (c1 ++ (v1 ++ (1 :: (c2 ++ (v2 ++ (0x11 :: (c3 ++ (v3 ++ l))))))))))))
    (hd : j.huffDc = List.replicate 4 JHuff.zero) (ha : j.huffAc = List.replicate 4 JHuff.zero) (hf : j.fastAc = List.replicate 4 (List.replicate 512 0)) :
    ∃ s' h0 h1 h2 h3 f1 f3, process_marker j 0xC4 = .ok (some { (j.at s') with huffDc := [h0, h2, JHuff.zero, JHuff.zero], huffAc := [h1, h3, JHuff.zero, JHuff.zero], fastAc := [f1, f3, List.replicate 512 0, List.replicate 512 0] }) ∧ Next j.e.s s' l ∧
      tableOk h0 (codeList c0 v0) = true ∧ tableOk h1 (codeList c1 v1) = true ∧ tableOk h2 (codeList c2 v2) = true ∧ tableOk h3 (codeList c3 v3) = true ∧
      facOk f1 h1 (codeList c1 v1) = true ∧ facOk f3 h3 (codeList c3 v3) = true := by
  generalize eN : a.toNat * 256 + b.toNat = N at hab
  obtain ⟨F, hF⟩ : ∃ F, N + 1 = F + 1 + 1 + 1 + 1 + 1 := ⟨N - 4, by clear hr hd ha hf; omega⟩
  obtain ⟨s1, e1, n1⟩ := get16_cons h hr
  have Z := JHuff.zero_blank
  have hfl : j.fastAc.length = 4 := by rw [hf]; rfl
  obtain ⟨s2, h0, _, e2, n2, t0, _⟩ := dhtTable_ok (j := j.at s1) n1.ok (tc := 0) (th := 0) (q := 0) (by decide) (by decide) (by decide) G0 n1.rem
    ⟨JHuff.zero, by rw [if_pos rfl]; show j.huffDc[0]? = _; rw [hd]; rfl, Z⟩ hfl
  rw [if_pos rfl] at e2
  generalize ej2 : ({ ((j.at s1).at s2) with huffDc := (j.at s1).huffDc.set 0 h0 } : Jst) = j2 at e2
  have d2 : j2.huffDc = j.huffDc.set 0 h0 ∧ j2.huffAc = j.huffAc ∧ j2.fastAc = j.fastAc ∧ j2.e.s = s2 := by rw [← ej2]; exact ⟨rfl, rfl, rfl, rfl⟩
  obtain ⟨s3, h1, f1, e3, n3, t1, k1⟩ := dhtTable_ok (j := j2) (by rw [d2.2.2.2]; exact n2.ok) (tc := 1) (th := 0) (q := 0x10) (by decide) (by decide) (by decide) G1
    (by rw [d2.2.2.2]; exact n2.rem) ⟨JHuff.zero, by rw [if_neg (by decide), d2.2.1, ha]; rfl, Z⟩ (by rw [d2.2.2.1]; exact hfl)
  rw [if_neg (by decide)] at e3
  generalize ej3 : ({ (j2.at s3) with huffAc := j2.huffAc.set 0 h1, fastAc := j2.fastAc.set 0 f1 } : Jst) = j3 at e3
  have d3 : j3.huffDc = j2.huffDc ∧ j3.huffAc = j2.huffAc.set 0 h1 ∧ j3.fastAc = j2.fastAc.set 0 f1 ∧ j3.e.s = s3 := by rw [← ej3]; exact ⟨rfl, rfl, rfl, rfl⟩
  obtain ⟨s4, h2, _, e4, n4, t2, _⟩ := dhtTable_ok (j := j3) (by rw [d3.2.2.2]; exact n3.ok) (tc := 0) (th := 1) (q := 1) (by decide) (by decide) (by decide) G2
    (by rw [d3.2.2.2]; exact n3.rem) ⟨JHuff.zero, by rw [if_pos rfl, d3.1, d2.1, hd]; rfl, Z⟩ (by rw [d3.2.2.1, List.length_set, d2.2.2.1]; exact hfl)
  rw [if_pos rfl] at e4
  generalize ej4 : ({ (j3.at s4) with huffDc := j3.huffDc.set 1 h2 } : Jst) = j4 at e4
  have d4 : j4.huffDc = j3.huffDc.set 1 h2 ∧ j4.huffAc = j3.huffAc ∧ j4.fastAc = j3.fastAc ∧ j4.e.s = s4 := by rw [← ej4]; exact ⟨rfl, rfl, rfl, rfl⟩
  obtain ⟨s5, h3, f3, e5, n5, t3, k3⟩ := dhtTable_ok (j := j4) (by rw [d4.2.2.2]; exact n4.ok) (tc := 1) (th := 1) (q := 0x11) (by decide) (by decide) (by decide) G3
    (by rw [d4.2.2.2]; exact n4.rem) ⟨JHuff.zero, by rw [if_neg (by decide), d4.2.1, d3.2.1, d2.2.1, ha]; rfl, Z⟩ (by rw [d4.2.2.1, d3.2.2.1, List.length_set, d2.2.2.1]; exact hfl)
  rw [if_neg (by decide)] at e5
  rw [d2.2.2.2] at n3
  rw [d3.2.2.2] at n4
  rw [d4.2.2.2] at n5
  refine ⟨s5, h0, h1, h2, h3, f1, f3, ?_, (((n1.trans n2).trans n3).trans n4).trans n5, t0, t1, t2, t3, k1, k3⟩
  unfold process_marker
  rw [if_neg (by decide), if_neg (by decide), if_neg (by decide), if_pos rfl, e1]
  dsimp only
  rw [eN, hF, dhtLoop, if_pos (by omega), e2, ok_bind]
  dsimp only
  rw [dhtLoop, if_pos (by omega), e3, ok_bind]
  dsimp only
  rw [dhtLoop, if_pos (by omega), e4, ok_bind]
  dsimp only
  rw [dhtLoop, if_pos (by omega), e5, ok_bind]
  dsimp only
  rw [dhtLoop, if_neg (by omega), if_pos (by omega)]
  rw [show (j4.at s5).huffDc = j4.huffDc from rfl, d4.1, d3.1, d2.1, hd, d4.2.1, d3.2.1, d2.2.1, ha, d4.2.2.1, d3.2.2.1, d2.2.2.1, hf, ← ej4, ← ej3, ← ej2]
  rfl

/-! ### The frame -/

theorem app_ok {j : Jst} (h : CtxOk j.e.s) {l : List UInt8} (hr : Ctx.rem j.e.s = 0 :: 0x10 :: ([74, 70, 73, 70, 0, 1, 1, 0, 0, 1, 0, 1, 0, 0] ++ l)) :
    ∃ s', process_marker j 0xE0 = .ok (some { (j.at s') with jfif := true }) ∧ Next j.e.s s' l := by
  obtain ⟨s1, e1, n1⟩ := get16_cons h hr
  obtain ⟨s2, e2, n2⟩ := takeBytes_app (l1 := [74, 70, 73, 70, 0]) (l2 := [1, 1, 0, 0, 1, 0, 1, 0, 0] ++ l) n1.ok n1.rem
  obtain ⟨l', n3, _, h3⟩ := skip_next n2.ok 9
  have hl := h3 (by norm_num)
  rw [n2.rem] at hl
  refine ⟨skip s2 9, ?_, (n1.trans n2).trans ⟨n3.ok, n3.file, n3.rem.trans hl⟩⟩
  unfold process_marker
  rw [if_neg (by decide), if_neg (by decide), if_neg (by decide), if_neg (by decide), if_pos (by decide)]
  unfold appSegment
  rw [e1]
  dsimp only
  rw [show (0 : UInt8).toNat * 256 + (0x10 : UInt8).toNat = 16 by decide, if_neg (by decide), if_pos (by decide)]
  rw [show ([74, 70, 73, 70, 0] : List UInt8).length = 5 from rfl] at e2
  rw [e2]
  dsimp only
  rw [if_pos (by decide)]
  rfl

/-- A component of which nothing is known. -/
def JComp.zero : JComp := ⟨0, 0, 0, 0, 0, 0, 0, 0, 0, 0, 0, []⟩

theorem forN_three {f : Jst → ℕ → CM (Option Jst)} {a b c d : Jst} (h0 : f a 0 = .ok (some b)) (h1 : f b 1 = .ok (some c)) (h2 : f c 2 = .ok (some d)) :
    forN 3 (some a) (fun i st => match st with | none => pure none | some j => f j i) = .ok (some d) := by
  rw [show 3 = 0 + 1 + 1 + 1 from rfl, forN_succ, forN_succ, forN_succ, forN_zero, ok_bind]
  dsimp only
  rw [h0, ok_bind]
  dsimp only
  rw [h1, ok_bind]
  exact h2

/-- The component of a frame with the sampling of `c`. -/
def sampled (id h v tq : ℕ) : JComp := { JComp.zero with id := id, h := h, v := v, tq := tq }

theorem frameComps_ok {j : Jst} (h : CtxOk j.e.s) {l : List UInt8} (hr : Ctx.rem j.e.s = [1, 0x22, 0, 2, 0x11, 1, 3, 0x11, 1] ++ l)
    (hc : j.comps = List.replicate 4 JComp.zero) :
    ∃ s', frameComps 3 j = .ok (some { (j.at s') with rgb := 0, comps := [sampled 1 2 2 0, sampled 2 1 1 1, sampled 3 1 1 1, JComp.zero] }) ∧
      Next j.e.s s' l := by
  obtain ⟨s1, e1, n1⟩ := takeBytes_app (l1 := [1, 0x22, 0]) (l2 := [2, 0x11, 1] ++ ([3, 0x11, 1] ++ l)) h hr
  obtain ⟨s2, e2, n2⟩ := takeBytes_app (l1 := [2, 0x11, 1]) n1.ok n1.rem
  obtain ⟨s3, e3, n3⟩ := takeBytes_app (l1 := [3, 0x11, 1]) n2.ok n2.rem
  refine ⟨s3, ?_, (n1.trans n2).trans n3⟩
  refine forN_three (f := frameComp 3) (b := { (j.at s1) with rgb := 0, comps := [sampled 1 2 2 0, JComp.zero, JComp.zero, JComp.zero] })
    (c := { (j.at s2) with rgb := 0, comps := [sampled 1 2 2 0, sampled 2 1 1 1, JComp.zero, JComp.zero] }) ?_ ?_ ?_
  · unfold frameComp
    rw [show takeBytes 3 ({ j with rgb := 0 } : Jst).e.s = _ from e1, show ({ j with rgb := 0 } : Jst).comps = _ from hc]
    rfl
  · unfold frameComp
    rw [show takeBytes 3 ({ (j.at s1) with rgb := 0, comps := [sampled 1 2 2 0, JComp.zero, JComp.zero, JComp.zero] } : Jst).e.s = _ from e2]
    rfl
  · unfold frameComp
    rw [show takeBytes 3 ({ (j.at s2) with rgb := 0, comps := [sampled 1 2 2 0, sampled 2 1 1 1, JComp.zero, JComp.zero] } : Jst).e.s = _ from e3]
    rfl

/-- The component of the frame with its plane. -/
def planed (w h id a t : ℕ) : JComp :=
  { JComp.zero with id := id, h := a, v := a, tq := t, x := (w * a + 2 - 1) / 2, y := (h * a + 2 - 1) / 2, w2 := (w + 15) / 16 * a * 8, h2 := (h + 15) / 16 * a * 8, data := List.replicate ((w + 15) / 16 * a * 8 * ((h + 15) / 16 * a * 8)) none }

theorem framePlanes_ok {m : JpegMem} (hm : ∀ i, m.plane i = true) {j : Jst} {w h : ℕ} (hw : w ≤ 65535) (hh : h ≤ 65535) (hwh : w * h * 4 ≤ 2147483647)
    (hj : j.imgN = 3 ∧ j.imgX = w ∧ j.imgY = h ∧ j.hMax = 2 ∧ j.vMax = 2 ∧ j.mcuX = (w + 15) / 16 ∧ j.mcuY = (h + 15) / 16)
    (hc : j.comps = [sampled 1 2 2 0, sampled 2 1 1 1, sampled 3 1 1 1, JComp.zero]) :
    framePlanes m j = .ok (some { j with comps := [planed w h 1 2 0, planed w h 2 1 1, planed w h 3 1 1, JComp.zero] }) := by
  obtain ⟨k1, k2, k3, k4, k5, k6, k7⟩ := hj
  have b2 : mad2ok ((w + 15) / 16 * 2 * 8) ((h + 15) / 16 * 2 * 8) 15 = true := by
    have A : (w + 15) / 16 * 2 * 8 ≤ w + 15 := by omega
    have B : (h + 15) / 16 * 2 * 8 ≤ h + 15 := by omega
    have C := Nat.mul_le_mul A B
    have D : (w + 15) * (h + 15) = w * h + 15 * w + 15 * h + 225 := by ring
    exact mad2ok_of (by omega)
  have b1 : mad2ok ((w + 15) / 16 * 1 * 8) ((h + 15) / 16 * 1 * 8) 15 = true := by
    have A : (w + 15) / 16 * 1 * 8 ≤ w + 15 := by omega
    have B : (h + 15) / 16 * 1 * 8 ≤ h + 15 := by omega
    have C := Nat.mul_le_mul A B
    have D : (w + 15) * (h + 15) = w * h + 15 * w + 15 * h + 225 := by ring
    exact mad2ok_of (by omega)
  unfold framePlanes
  rw [k1]
  refine forN_three (f := framePlane m) (b := { j with comps := [planed w h 1 2 0, sampled 2 1 1 1, sampled 3 1 1 1, JComp.zero] })
    (c := { j with comps := [planed w h 1 2 0, planed w h 2 1 1, sampled 3 1 1 1, JComp.zero] }) ?_ ?_ ?_
  · unfold framePlane
    rw [hc, show rdIn [sampled 1 2 2 0, sampled 2 1 1 1, sampled 3 1 1 1, JComp.zero] 0 = .ok (sampled 1 2 2 0) from rfl, ok_bind]
    dsimp only [sampled]
    rw [k6, k7, b2, hm, if_pos (by rfl), k2, k3, k4, k5]
    rfl
  · unfold framePlane
    rw [show rdIn [planed w h 1 2 0, sampled 2 1 1 1, sampled 3 1 1 1, JComp.zero] 1 = .ok (sampled 2 1 1 1) from rfl, ok_bind]
    dsimp only [sampled]
    rw [k6, k7, b1, hm, if_pos (by rfl), k2, k3, k4, k5]
    rfl
  · unfold framePlane
    rw [show rdIn [planed w h 1 2 0, planed w h 2 1 1, sampled 3 1 1 1, JComp.zero] 2 = .ok (sampled 3 1 1 1) from rfl, ok_bind]
    dsimp only [sampled]
    rw [k6, k7, b1, hm, if_pos (by rfl), k2, k3, k4, k5, k1]
    rfl

theorem frame_ok {m : JpegMem} (hm : ∀ i, m.plane i = true) {j : Jst} (hj : CtxOk j.e.s) {w h : ℕ} (hw : w ≤ 65535) (hh : h ≤ 65535) (h1 : 1 ≤ w) (h2 : 1 ≤ h)
    (hwh : w * h * 4 ≤ 2147483647) {l : List UInt8}
    (hr : Ctx.rem j.e.s = 0 :: 0x11 :: 8 :: u8 (h / 256) :: u8 h :: u8 (w / 256) :: u8 w :: 3 :: ([1, 0x22, 0, 2, 0x11, 1, 3, 0x11, 1] ++ l))
    (hc : j.comps = List.replicate 4 JComp.zero) :
    ∃ s', process_frame_header m j = .ok (some { (j.at s') with imgX := w, imgY := h, imgN := 3, rgb := 0, hMax := 2, vMax := 2, mcuX := (w + 15) / 16, mcuY := (h + 15) / 16, comps := [planed w h 1 2 0, planed w h 2 1 1, planed w h 3 1 1, JComp.zero] }) ∧ Next j.e.s s' l := by
  obtain ⟨s1, e1, n1⟩ := get16_cons hj hr
  obtain ⟨s2, e2, n2⟩ := get8_cons n1.ok n1.rem
  obtain ⟨s3, e3, n3⟩ := get16_cons n2.ok n2.rem
  obtain ⟨s4, e4, n4⟩ := get16_cons n3.ok n3.rem
  obtain ⟨s5, e5, n5⟩ := get8_cons n4.ok n4.rem
  obtain ⟨s6, e6, n6⟩ := frameComps_ok (j := { (j.at s5) with imgX := w, imgY := h, imgN := 3 }) n5.ok n5.rem hc
  refine ⟨s6, ?_, ((((n1.trans n2).trans n3).trans n4).trans n5).trans n6⟩
  unfold process_frame_header
  rw [e1]
  dsimp only
  rw [show (0 : UInt8).toNat * 256 + (0x11 : UInt8).toNat = 17 by decide, if_neg (by decide), e2]
  dsimp only
  rw [if_neg (by decide), e3]
  dsimp only
  rw [u8_pair hh, if_neg (by omega), e4]
  dsimp only
  rw [u8_pair hw, if_neg (by omega), e5]
  dsimp only
  rw [show (3 : UInt8).toNat = 3 by decide, if_neg (by decide), if_neg (by decide)]
  refine (bind_of_eq e6 _).trans ?_
  dsimp only
  rw [if_neg (by rw [mad3ok_of (by omega) (by omega)]; decide),
    show ((([sampled 1 2 2 0, sampled 2 1 1 1, sampled 3 1 1 1, JComp.zero] : List JComp).take 3).map (·.h)).foldl max 1 = 2 from rfl,
    show ((([sampled 1 2 2 0, sampled 2 1 1 1, sampled 3 1 1 1, JComp.zero] : List JComp).take 3).map (·.v)).foldl max 1 = 2 from rfl, if_neg (by decide)]
  rw [framePlanes_ok hm hw hh hwh ⟨rfl, rfl, rfl, rfl, rfl, by show (w + 2 * 8 - 1) / (2 * 8) = _; norm_num, by show (h + 2 * 8 - 1) / (2 * 8) = _; norm_num⟩ rfl]
  rfl

/-- The component of the scan. -/
def coded (w h id a t : ℕ) : JComp := { planed w h id a t with hd := t, ha := t }

theorem scan_header_ok {j : Jst} (hj : CtxOk j.e.s) {w h : ℕ} {l : List UInt8} (hn : j.imgN = 3)
    (hr : Ctx.rem j.e.s = 0 :: 0xC :: 3 :: 1 :: 0 :: 2 :: 0x11 :: 3 :: 0x11 :: ([0, 0x3F, 0] ++ l))
    (hc : j.comps = [planed w h 1 2 0, planed w h 2 1 1, planed w h 3 1 1, JComp.zero]) (ho : j.order = List.replicate 4 0) :
    ∃ s', process_scan_header j = .ok (some ({ (j.at s') with order := [0, 1, 2, 0], comps := [coded w h 1 2 0, coded w h 2 1 1, coded w h 3 1 1, JComp.zero] }, 3)) ∧
      Next j.e.s s' l := by
  obtain ⟨s1, e1, n1⟩ := get16_cons hj hr
  obtain ⟨s2, e2, n2⟩ := get8_cons n1.ok n1.rem
  obtain ⟨s3, e3, n3⟩ := get8_cons n2.ok n2.rem
  obtain ⟨s4, e4, n4⟩ := get8_cons n3.ok n3.rem
  obtain ⟨s5, e5, n5⟩ := get8_cons n4.ok n4.rem
  obtain ⟨s6, e6, n6⟩ := get8_cons n5.ok n5.rem
  obtain ⟨s7, e7, n7⟩ := get8_cons n6.ok n6.rem
  obtain ⟨s8, e8, n8⟩ := get8_cons n7.ok n7.rem
  obtain ⟨s9, e9, n9⟩ := takeBytes_app (l1 := [0, 0x3F, 0]) n8.ok n8.rem
  refine ⟨s9, ?_, (((((((n1.trans n2).trans n3).trans n4).trans n5).trans n6).trans n7).trans n8).trans n9⟩
  unfold process_scan_header
  rw [e1]
  dsimp only
  rw [e2]
  dsimp only
  rw [show (3 : UInt8).toNat = 3 by decide, hn, if_neg (by decide), if_neg (by decide)]
  refine (bind_of_eq (forN_three (f := scanComp) (b := { (j.at s4) with order := [0, 0, 0, 0], comps := [coded w h 1 2 0, planed w h 2 1 1, planed w h 3 1 1, JComp.zero] })
    (c := { (j.at s6) with order := [0, 1, 0, 0], comps := [coded w h 1 2 0, coded w h 2 1 1, planed w h 3 1 1, JComp.zero] })
    (d := { (j.at s8) with order := [0, 1, 2, 0], comps := [coded w h 1 2 0, coded w h 2 1 1, coded w h 3 1 1, JComp.zero] }) ?_ ?_ ?_) _).trans ?_
  · unfold scanComp
    rw [show get8 (j.at s2).e.s = _ from e3]
    dsimp only
    rw [e4]
    dsimp only
    rw [show (j.at s2).comps = _ from hc, show (j.at s2).imgN = _ from hn, show (j.at s2).order = _ from ho,
      show (([planed w h 1 2 0, planed w h 2 1 1, planed w h 3 1 1, JComp.zero] : List JComp).take 3).findIdx (fun c => decide (c.id = (1 : UInt8).toNat)) = 0 by simp [planed, coded, List.findIdx_cons], if_neg (by show ¬ 3 ≤ 0; decide), if_neg (by decide), if_neg (by decide)]
    rfl
  · unfold scanComp
    rw [show get8 ({ (j.at s4) with order := [0, 0, 0, 0], comps := [coded w h 1 2 0, planed w h 2 1 1, planed w h 3 1 1, JComp.zero] } : Jst).e.s = _ from e5]
    dsimp only
    rw [e6]
    dsimp only
    rw [show (j.at s4).imgN = _ from hn, show (j.at s6).imgN = _ from hn,
      show (([coded w h 1 2 0, planed w h 2 1 1, planed w h 3 1 1, JComp.zero] : List JComp).take 3).findIdx (fun c => decide (c.id = (2 : UInt8).toNat)) = 1 by simp [planed, coded, List.findIdx_cons], if_neg (by show ¬ 3 ≤ 1; decide), if_neg (by decide), if_neg (by decide)]
    rfl
  · unfold scanComp
    rw [show get8 ({ (j.at s6) with order := [0, 1, 0, 0], comps := [coded w h 1 2 0, coded w h 2 1 1, planed w h 3 1 1, JComp.zero] } : Jst).e.s = _ from e7]
    dsimp only
    rw [e8]
    dsimp only
    rw [show (j.at s6).imgN = _ from hn, show (j.at s8).imgN = _ from hn,
      show (([coded w h 1 2 0, coded w h 2 1 1, planed w h 3 1 1, JComp.zero] : List JComp).take 3).findIdx (fun c => decide (c.id = (3 : UInt8).toNat)) = 2 by simp [planed, coded, List.findIdx_cons], if_neg (by show ¬ 3 ≤ 2; decide), if_neg (by decide), if_neg (by decide)]
    rfl
  · dsimp only
    rw [show takeBytes 3 (j.at s8).e.s = _ from e9]
    dsimp only
    rw [if_neg (by decide), if_neg (by decide)]
    rfl

end FlatCV
