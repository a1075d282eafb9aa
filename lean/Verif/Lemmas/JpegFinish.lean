/-
The samples of progressive JPEG files.
-/
import Verif.Lemmas.JpegBand
import Verif.Lemmas.JpegReadScan

namespace FlatCV
open Model Jpg

/-- The coefficients of a block times their steps. -/
theorem dequantize_ok {cf : Cells Int} {off : Nat} {dq : List Nat} (hdq : dq.length = 64) {C : Nat → Int} (hcf : ∀ k < 64, cf[off + zagOf k]? = some (some (C k)))
    (hb : ∀ k < 64, |C k * (dq.getD (zagOf k) 0 : Nat)| ≤ 2300) :
    ∃ data, dequantize cf off dq = .ok data ∧ Zd dq data ((List.range 64).map C) := by
  have hlist : ∀ k < 64, ((List.range 64).map C).getD k 0 = C k := by
    intro k hk
    rw [List.getD_eq_getElem?_getD, List.getElem?_map, List.getElem?_range hk]
    rfl
  have key : Ok (dequantize cf off dq) fun data => data.length = 64 ∧ ∀ k < 64, zagOf k < 64 → data.getD (zagOf k) 0 = C k * (dq.getD (zagOf k) 0 : Nat) := by
    unfold dequantize
    refine forN_ok (fun n (data : List Int) => data.length = n ∧ ∀ k < 64, zagOf k < n → data.getD (zagOf k) 0 = C k * (dq.getD (zagOf k) 0 : Nat)) ⟨rfl, fun k _ h => absurd h (by omega)⟩ ?_
    rintro i hi l ⟨g1, g2⟩
    obtain ⟨k, hk, rfl⟩ := zagOf_surj i hi
    have hqg : dq[zagOf k]? = some (dq.getD (zagOf k) 0) := by
      rw [List.getD_eq_getElem?_getD, List.getElem?_eq_getElem (by omega)]
      rfl
    have hbk := hb k hk
    have ha := abs_le.1 hbk
    rw [rd_cell (hcf k hk), ok_bind, rdIn_ok hqg, ok_bind, i32_ok (by unfold IsI32; omega), ok_bind, asShort_id (by omega)]
    refine ⟨_, rfl, by rw [List.length_append, g1]; rfl, fun k' hk' h' => ?_⟩
    by_cases e : zagOf k' = zagOf k
    · obtain rfl := zagOf_inj _ hk' _ hk e
      rw [List.getD_eq_getElem?_getD, List.getElem?_append_right (by omega), g1, Nat.sub_self]
      rfl
    · have := g2 k' hk' (by omega)
      rw [List.getD_eq_getElem?_getD] at this ⊢
      rw [List.getElem?_append_left (by omega)]
      exact this
  obtain ⟨data, h1, h2, h3⟩ := key
  refine ⟨data, h1, h2, fun k hk => ?_⟩
  rw [h3 k hk (zagOf_lt k hk), hlist k hk]

/-- What is known of component `n` before the end of the file: the sizes, the steps and the coefficients `C x y k`. -/
structure CompCoefs (p : Prog) (n : Nat) (c : JComp) (cf : Cells Int) (dq : List Nat) (C : Nat → Nat → Nat → Int) : Prop where
  comp : p.j.comps[n]? = some c
  coef : p.coef[n]? = some cf
  steps : p.j.dequant[c.tq]? = some dq
  ldq : dq.length = 64
  width : (c.x + 7) / 8 * 8 ≤ c.w2
  size : c.w2 * ((c.y + 7) / 8 * 8) ≤ c.data.length
  cells : ∀ x < (c.x + 7) / 8, ∀ y < (c.y + 7) / 8, ∀ k < 64, cf[64 * (x + y * (c.w2 / 8)) + zagOf k]? = some (some (C x y k))
  bound : ∀ x < (c.x + 7) / 8, ∀ y < (c.y + 7) / 8, ∀ k < 64, |C x y k * (dq.getD (zagOf k) 0 : Nat)| ≤ 2300

theorem finishComp_ok {p : Prog} {n : Nat} {c : JComp} {cf : Cells Int} {dq : List Nat} {C : Nat → Nat → Nat → Int} (H : CompCoefs p n c cf dq C) :
    Ok (forN ((c.y + 7) / 8) p fun y p => forN ((c.x + 7) / 8) p fun x p => finishBlock n x y p) fun p' => ∃ d : Cells UInt8, d.length = c.data.length ∧
      p' = { p with j := { p.j with comps := p.j.comps.set n { c with data := d } } } ∧
      ∀ x < (c.x + 7) / 8, ∀ y < (c.y + 7) / 8, BlockCells d c.w2 y x dq ((List.range 64).map (C x y)) := by
  have hn := (List.getElem?_eq_some_iff.1 H.comp).1
  have step : ∀ (x : Nat) (_ : x < (c.x + 7) / 8) (y : Nat) (_ : y < (c.y + 7) / 8) (d : Cells UInt8) (_ : d.length = c.data.length),
      ∃ d' : Cells UInt8, d'.length = c.data.length ∧ finishBlock n x y { p with j := { p.j with comps := p.j.comps.set n { c with data := d } } } =
        .ok { p with j := { p.j with comps := p.j.comps.set n { c with data := d' } } } ∧ BlockCells d' c.w2 y x dq ((List.range 64).map (C x y)) ∧
        ∀ x' < (c.x + 7) / 8, ∀ y', ¬ (x' = x ∧ y' = y) → ∀ l, BlockCells d c.w2 y' x' dq l → BlockCells d' c.w2 y' x' dq l := by
    intro x hx y hy d hd
    obtain ⟨data, z1, z2⟩ := dequantize_ok H.ldq (H.cells x hx y hy) (H.bound x hx y hy)
    have hw := H.width
    have hs := H.size
    have hx8 : ∀ x' < (c.x + 7) / 8, x' * 8 + 8 ≤ c.w2 := fun x' _ => by omega
    have hy8 := Nat.mul_le_mul_left c.w2 (show y * 8 + 8 ≤ (c.y + 7) / 8 * 8 by omega)
    rw [Nat.mul_add] at hy8
    have hin : c.w2 * (y * 8) + x * 8 + 7 * c.w2 + 7 < d.length := by
      have := hx8 x hx
      rw [hd]
      omega
    have hb : ∀ k < 64, |((List.range 64).map (C x y)).getD k 0 * (dq.getD (zagOf k) 0 : Nat)| ≤ 2300 := by
      intro k hk
      rw [List.getD_eq_getElem?_getD, List.getElem?_map, List.getElem?_range hk]
      exact H.bound x hx y hy k hk
    obtain ⟨d', i1, i2, i3, i4⟩ := idct_block_ok z2.1 (z2.bound hb) (out := d) (off := c.w2 * (y * 8) + x * 8) (stride := c.w2) (by have := hx8 x hx; omega) hin
    refine ⟨d', i2.trans hd, ?_, ⟨data, z2, i3⟩, fun x' hx' y' hne l hB => ?_⟩
    · unfold finishBlock
      dsimp only
      rw [rdIn_ok (List.getElem?_set_self hn), ok_bind, rdIn_ok H.coef, ok_bind]
      dsimp only
      rw [rdIn_ok H.steps, ok_bind, z1, ok_bind, i1, ok_bind]
      unfold wrIn
      rw [if_pos (by rw [List.length_set]; exact hn), ok_bind, List.set_set]
      rfl
    · obtain ⟨data', w1, w2⟩ := hB
      refine ⟨data', w1, fun r hr cc hcc => ?_⟩
      rw [← w2 r hr cc hcc]
      refine i4 _ fun r' hr' cc' hcc' he => hne ?_
      obtain ⟨b1, b2⟩ := blocks_disjoint (hx8 x' hx') (hx8 x hx) hr hcc hr' hcc' he
      exact ⟨b2, b1⟩
  have outer := forN_ok (n := (c.y + 7) / 8) (s := p) (body := fun y p => forN ((c.x + 7) / 8) p fun x p => finishBlock n x y p)
    (fun Y p' => ∃ d : Cells UInt8, d.length = c.data.length ∧ p' = { p with j := { p.j with comps := p.j.comps.set n { c with data := d } } } ∧
      ∀ x < (c.x + 7) / 8, ∀ y < Y, BlockCells d c.w2 y x dq ((List.range 64).map (C x y)))
    ⟨c.data, rfl, by rw [set_same H.comp], fun x _ y hy => absurd hy (by omega)⟩ ?_
  · exact outer
  · rintro y hy p1 hp1
    have inner := forN_ok (n := (c.x + 7) / 8) (s := p1) (body := fun x p => finishBlock n x y p)
      (fun X p' => ∃ d : Cells UInt8, d.length = c.data.length ∧ p' = { p with j := { p.j with comps := p.j.comps.set n { c with data := d } } } ∧
        ∀ x < (c.x + 7) / 8, ∀ y' < y + 1, (y' < y ∨ x < X) → BlockCells d c.w2 y' x dq ((List.range 64).map (C x y'))) ?_ ?_
    · obtain ⟨p2, g1, d, g2, g3, g4⟩ := inner
      exact ⟨p2, g1, d, g2, g3, fun x hx y' hy' => g4 x hx y' hy' (Or.inr hx)⟩
    · obtain ⟨d, g2, g3, g4⟩ := hp1
      exact ⟨d, g2, g3, fun x hx y' _ h => g4 x hx y' (by omega)⟩
    · rintro x hx p2 ⟨d, g2, rfl, g4⟩
      obtain ⟨d', s1, s2, s3, s4⟩ := step x hx y hy d g2
      refine ⟨_, s2, d', s1, rfl, fun x' hx' y' hy' h => ?_⟩
      by_cases e : x' = x ∧ y' = y
      · obtain ⟨rfl, rfl⟩ := e
        exact s3
      · exact s4 x' hx' y' e _ (g4 x' hx' y' hy' (by omega))

end FlatCV
