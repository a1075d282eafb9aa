/-
The enlargement of subsampled components and the conversion to RGB.
-/
import Verif.Model.JpegKernel
import Verif.Lemmas.JpegIdct
import Verif.Spec.JpegPixel

namespace FlatCV
open Model Jpg

/-- Sixteen times the interpolation in both directions, rounded. -/
def upByte (N F : Nat → UInt8) (w x : Nat) : UInt8 :=
  UInt8.ofNat ((3 * (3 * (N (x / 2)).toNat + (F (x / 2)).toNat) + (3 * (N (beyond w x)).toNat + (F (beyond w x)).toNat) + 8) / 16)

theorem set_at {α : Type} {v : Cells α} {i p : Nat} {a : α} (h : i < v.length) : (v.set i (some a))[p]? = if p = i then some (some a) else v[p]? := by
  by_cases e : p = i
  · rw [if_pos e, e, List.getElem?_set_self h]
  · rw [if_neg e, List.getElem?_set_ne (Ne.symm e)]

theorem hv_2_ok {near far : Nat → CM UInt8} {N F : Nat → UInt8} {w : Nat} (hw : 1 ≤ w) (hn : ∀ i < w, near i = .ok (N i)) (hf : ∀ i < w, far i = .ok (F i))
    {out : Cells UInt8} (ho : 2 * w ≤ out.length) :
    Ok (resample_row_hv_2 out near far w) fun out' => out'.length = out.length ∧ ∀ x < 2 * w, out'[x]? = some (some (upByte N F w x)) := by
  unfold resample_row_hv_2
  rw [hn 0 (by omega), ok_bind, hf 0 (by omega), ok_bind]
  split
  · rename_i h1
    subst h1
    rw [wr_eq (by omega), ok_bind, wr_eq (by simp only [List.length_set]; omega)]
    refine Ok.of_eq rfl ⟨by simp only [List.length_set], fun x hx => ?_⟩
    have e : ∀ x < 2, upByte N F 1 x = div4 (3 * (N 0).toNat + (F 0).toNat + 2) := by
      intro x hx
      have h2 : x / 2 = 0 := by omega
      have h3 : beyond 1 x = 0 := by unfold beyond; split <;> omega
      unfold upByte div4
      rw [h2, h3]
      congr 1
      omega
    rw [e x (by omega), set_at (by simp only [List.length_set]; omega), set_at (by omega)]
    split
    · rfl
    · rw [if_pos (by omega)]
  · rename_i h1
    dsimp only
    rw [wr_eq (by omega), ok_bind]
    refine Ok.bind (P := fun (st : Cells UInt8 × Nat) => st.1.length = out.length ∧ st.2 = 3 * (N (w - 1)).toNat + (F (w - 1)).toNat ∧
      ∀ x < 2 * w - 1, st.1[x]? = some (some (upByte N F w x))) ?_ ?_
    · refine (forN_ok (fun k (st : Cells UInt8 × Nat) => st.1.length = out.length ∧ st.2 = 3 * (N k).toNat + (F k).toNat ∧
        ∀ x < 2 * k + 1, st.1[x]? = some (some (upByte N F w x))) ⟨by simp only [List.length_set], rfl, ?_⟩ ?_).mono ?_
      · intro x hx
        obtain rfl : x = 0 := by omega
        rw [List.getElem?_set_self (by omega)]
        unfold upByte div4 beyond
        simp only [Nat.zero_div, Nat.zero_mod, if_true, Nat.zero_sub]
        congr 3
        omega
      · rintro k hk ⟨o, t⟩ ⟨hl, rfl, hx⟩
        simp only at hl hx
        simp only
        rw [hn (k + 1) (by omega), ok_bind, hf (k + 1) (by omega), ok_bind, wr_eq (by omega), ok_bind, wr_eq (by simp only [List.length_set]; omega), ok_bind]
        refine Ok.of_eq rfl ⟨by simp only [List.length_set, hl], rfl, fun x hx' => ?_⟩
        simp only
        rw [set_at (by simp only [List.length_set]; omega), set_at (by omega)]
        split
        · rename_i e
          subst e
          unfold upByte div16 beyond
          rw [show (k + 1) * 2 / 2 = k + 1 by omega, if_pos (by omega), show k + 1 - 1 = k by omega]
        · split
          · rename_i e
            subst e
            unfold upByte div16 beyond
            rw [show ((k + 1) * 2 - 1) / 2 = k by omega, if_neg (by omega), show min (k + 1) (w - 1) = k + 1 by omega]
          · exact hx x (by omega)
      · rintro ⟨o, t⟩ ⟨hl, ht, hx⟩
        exact ⟨hl, ht, fun x h => hx x (by omega)⟩
    · rintro ⟨o, t⟩ ⟨hl, ht, hx⟩
      simp only at hl ht hx
      subst ht
      simp only
      rw [wr_eq (by omega)]
      refine Ok.of_eq rfl ⟨by simp only [List.length_set, hl], fun x hx' => ?_⟩
      rw [set_at (by omega)]
      split
      · rename_i e
        subst e
        unfold upByte div4 beyond
        rw [show (w * 2 - 1) / 2 = w - 1 by omega, if_neg (by omega), show min (w - 1 + 1) (w - 1) = w - 1 by omega]
        congr 3
        omega
      · exact hx x (by omega)

theorem v_2_ok {near far : Nat → CM UInt8} {N F : Nat → UInt8} {w : Nat} (hn : ∀ i < w, near i = .ok (N i)) (hf : ∀ i < w, far i = .ok (F i))
    {out : Cells UInt8} (ho : w ≤ out.length) :
    Ok (resample_row_v_2 out near far w) fun out' => out'.length = out.length ∧
      ∀ x < w, out'[x]? = some (some (UInt8.ofNat ((3 * (N x).toNat + (F x).toNat + 2) / 4))) := by
  unfold resample_row_v_2
  refine (forN_ok (fun k (o : Cells UInt8) => o.length = out.length ∧
    ∀ x < k, o[x]? = some (some (UInt8.ofNat ((3 * (N x).toNat + (F x).toNat + 2) / 4)))) ⟨rfl, fun x hx => absurd hx (by omega)⟩ ?_).mono fun _ h => h
  intro k hk o ⟨hl, hx⟩
  rw [hn k hk, ok_bind, hf k hk, ok_bind, wr_eq (by omega)]
  refine Ok.of_eq rfl ⟨by simp only [List.length_set, hl], fun x hx' => ?_⟩
  rw [set_at (by omega)]
  split
  · rename_i e; rw [e]; rfl
  · exact hx x (by omega)

/-- What the horizontal enlargement writes at position `x`. -/
def hByte (N : Nat → UInt8) (w x : Nat) : UInt8 :=
  if 2 ≤ w ∧ x = 2 * (w - 1) then UInt8.ofNat ((3 * (N (w - 2)).toNat + (N (w - 1)).toNat + 2) / 4)
  else UInt8.ofNat ((3 * (N (x / 2)).toNat + (N (beyond w x)).toNat + 2) / 4)

theorem ofNat_quarter (a : UInt8) : UInt8.ofNat ((3 * a.toNat + a.toNat + 2) / 4) = a := by
  rw [show (3 * a.toNat + a.toNat + 2) / 4 = a.toNat by omega]
  exact UInt8.ofNat_toNat

theorem h_2_ok {input : Nat → CM UInt8} {N : Nat → UInt8} {w : Nat} (hw : 1 ≤ w) (hn : ∀ i < w, input i = .ok (N i))
    {out : Cells UInt8} (ho : 2 * w ≤ out.length) :
    Ok (resample_row_h_2 out input w) fun out' => out'.length = out.length ∧ ∀ x < 2 * w, out'[x]? = some (some (hByte N w x)) := by
  unfold resample_row_h_2
  split
  · rename_i h1
    subst h1
    rw [hn 0 (by omega), ok_bind, wr_eq (by omega), ok_bind, wr_eq (by simp only [List.length_set]; omega)]
    refine Ok.of_eq rfl ⟨by simp only [List.length_set], fun x hx => ?_⟩
    have e : ∀ x < 2, hByte N 1 x = N 0 := by
      intro x hx
      have h2 : x / 2 = 0 := by omega
      have h3 : beyond 1 x = 0 := by unfold beyond; split <;> omega
      unfold hByte
      rw [if_neg (by omega), h2, h3, ofNat_quarter]
    rw [e x (by omega), set_at (by simp only [List.length_set]; omega), set_at (by omega)]
    split
    · rfl
    · rw [if_pos (by omega)]
  · rename_i h1
    rw [hn 0 (by omega), ok_bind, hn 1 (by omega), ok_bind, wr_eq (by omega), ok_bind, wr_eq (by simp only [List.length_set]; omega), ok_bind]
    refine Ok.bind (P := fun (o : Cells UInt8) => o.length = out.length ∧ ∀ x < 2 * (w - 1), o[x]? = some (some (hByte N w x))) ?_ ?_
    · refine (forN_ok (fun k (o : Cells UInt8) => o.length = out.length ∧ ∀ x < 2 * (k + 1), o[x]? = some (some (hByte N w x)))
        ⟨by simp only [List.length_set], ?_⟩ ?_).mono ?_
      · intro x hx
        rw [set_at (by simp only [List.length_set]; omega), set_at (by omega)]
        split
        · rename_i e
          subst e
          unfold hByte beyond div4
          rw [if_neg (by omega), if_neg (by omega), show min (1 / 2 + 1) (w - 1) = 1 by omega, Nat.mul_comm]
        · rw [if_pos (by omega)]
          obtain rfl : x = 0 := by omega
          unfold hByte beyond
          rw [if_neg (by omega), if_pos (by omega), Nat.zero_div, Nat.zero_sub, ofNat_quarter]
      · rintro k hk o ⟨hl, hx⟩
        rw [hn (k + 1) (by omega), ok_bind, hn k (by omega), ok_bind, hn (k + 2) (by omega), ok_bind, wr_eq (by omega), ok_bind,
          wr_eq (by simp only [List.length_set]; omega)]
        refine Ok.of_eq rfl ⟨by simp only [List.length_set, hl], fun x hx' => ?_⟩
        rw [set_at (by simp only [List.length_set]; omega), set_at (by omega)]
        split
        · rename_i e
          subst e
          unfold hByte beyond div4
          rw [if_neg (by omega), if_neg (by omega), show ((k + 1) * 2 + 1) / 2 = k + 1 by omega, show min (k + 1 + 1) (w - 1) = k + 2 by omega]
          congr 3
          omega
        · split
          · rename_i e
            subst e
            unfold hByte beyond div4
            rw [if_neg (by omega), if_pos (by omega), show (k + 1) * 2 / 2 = k + 1 by omega, show k + 1 - 1 = k by omega]
            congr 3
            omega
          · exact hx x (by omega)
      · rintro o ⟨hl, hx⟩
        exact ⟨hl, fun x h => hx x (by omega)⟩
    · rintro o ⟨hl, hx⟩
      rw [hn (w - 2) (by omega), ok_bind, hn (w - 1) (by omega), ok_bind, wr_eq (by omega), ok_bind, wr_eq (by simp only [List.length_set]; omega)]
      refine Ok.of_eq rfl ⟨by simp only [List.length_set, hl], fun x hx' => ?_⟩
      rw [set_at (by simp only [List.length_set]; omega), set_at (by omega)]
      split
      · rename_i e
        subst e
        unfold hByte beyond
        rw [if_neg (by omega), if_neg (by omega), show ((w - 1) * 2 + 1) / 2 = w - 1 by omega, show min (w - 1 + 1) (w - 1) = w - 1 by omega, ofNat_quarter]
      · split
        · rename_i e
          subst e
          unfold hByte div4
          rw [if_pos (by omega), Nat.mul_comm (N (w - 2)).toNat]
        · exact hx x (by omega)

/-! ### Colours -/

/-- The three bytes of a pixel. -/
def redB (y cr : UInt8) : UInt8 := stbClamp (((y.toNat : Int) * 1048576 + 524288 + (cr.toNat - 128) * 1470208) / 1048576)
def greenB (y cb cr : UInt8) : UInt8 :=
  stbClamp (((y.toNat : Int) * 1048576 + 524288 - (cr.toNat - 128) * 748800 + (-(((cb.toNat : Int) - 128) * 360960)) / 65536 * 65536) / 1048576)
def blueB (y cb : UInt8) : UInt8 := stbClamp (((y.toNat : Int) * 1048576 + 524288 + (cb.toNat - 128) * 1858048) / 1048576)

theorem ycc_pixel_ok (y cb cr : UInt8) : ycc_pixel y cb cr = .ok (redB y cr, greenB y cb cr, blueB y cb) := by
  have h1 := y.toNat_lt
  have h2 := cb.toNat_lt
  have h3 := cr.toNat_lt
  unfold ycc_pixel redB greenB blueB
  generalize y.toNat = a at *
  generalize cb.toNat = b at *
  generalize cr.toNat = c at *
  iterate 11 rw [i32_ok (by unfold IsI32; omega), ok_bind]
  have e : asSigned32 ((a : Int) * 1048576 + 524288 + ((c : Int) - 128) * -(2925 * 256) + ((b : Int) - 128) * -(1410 * 256) / 65536 * 65536) =
      (a : Int) * 1048576 + 524288 - ((c : Int) - 128) * 748800 + (-(((b : Int) - 128) * 360960)) / 65536 * 65536 := by
    rw [show ((b : Int) - 128) * -(1410 * 256) = -(((b : Int) - 128) * 360960) by ring]
    unfold asSigned32
    omega
  rw [e]
  norm_num
  rfl

theorem ycc_row_ok {y cb cr : Nat → CM UInt8} {Y B R : Nat → UInt8} {count : Nat} (hy : ∀ i < count, y i = .ok (Y i)) (hb : ∀ i < count, cb i = .ok (B i))
    (hr : ∀ i < count, cr i = .ok (R i)) {out : Cells UInt8} {off : Nat} (ho : off + 4 * count ≤ out.length) :
    Ok (ycc_row out off y cb cr count) fun out' => out'.length = out.length ∧ (∀ p, (p < off ∨ off + 4 * count ≤ p) → out'[p]? = out[p]?) ∧
      ∀ x < count, out'[off + 4 * x]? = some (some (redB (Y x) (R x))) ∧ out'[off + 4 * x + 1]? = some (some (greenB (Y x) (B x) (R x))) ∧
        out'[off + 4 * x + 2]? = some (some (blueB (Y x) (B x))) ∧ out'[off + 4 * x + 3]? = some (some 255) := by
  unfold ycc_row
  refine (forN_ok (fun k (o : Cells UInt8) => o.length = out.length ∧ (∀ p, (p < off ∨ off + 4 * k ≤ p) → o[p]? = out[p]?) ∧
      ∀ x < k, o[off + 4 * x]? = some (some (redB (Y x) (R x))) ∧ o[off + 4 * x + 1]? = some (some (greenB (Y x) (B x) (R x))) ∧
        o[off + 4 * x + 2]? = some (some (blueB (Y x) (B x))) ∧ o[off + 4 * x + 3]? = some (some 255))
    ⟨rfl, fun p _ => rfl, fun x hx => absurd hx (by omega)⟩ ?_).mono fun _ h => h
  intro k hk o ⟨hl, ho', hx⟩
  rw [hy k hk, ok_bind, hr k hk, ok_bind, hb k hk, ok_bind, ycc_pixel_ok, ok_bind]
  simp only
  rw [wr_eq (by omega), ok_bind, wr_eq (by simp only [List.length_set]; omega), ok_bind, wr_eq (by simp only [List.length_set]; omega), ok_bind,
    wr_eq (by simp only [List.length_set]; omega)]
  have key : ∀ p, ((((o.set (off + k * 4) (some (redB (Y k) (R k)))).set (off + k * 4 + 1) (some (greenB (Y k) (B k) (R k)))).set (off + k * 4 + 2)
      (some (blueB (Y k) (B k)))).set (off + k * 4 + 3) (some 255))[p]? = if p = off + k * 4 + 3 then some (some 255) else
        if p = off + k * 4 + 2 then some (some (blueB (Y k) (B k))) else if p = off + k * 4 + 1 then some (some (greenB (Y k) (B k) (R k))) else
          if p = off + k * 4 then some (some (redB (Y k) (R k))) else o[p]? := by
    intro p
    rw [set_at (by simp only [List.length_set]; omega), set_at (by simp only [List.length_set]; omega), set_at (by simp only [List.length_set]; omega),
      set_at (by omega)]
  refine Ok.of_eq rfl ⟨by simp only [List.length_set, hl], fun p hp => ?_, fun x hx' => ?_⟩
  · rw [key, if_neg (by omega), if_neg (by omega), if_neg (by omega), if_neg (by omega)]
    exact ho' p (by omega)
  · simp only [key]
    by_cases e : x = k
    · subst e
      refine ⟨?_, ?_, ?_, ?_⟩
      · rw [if_neg (by omega), if_neg (by omega), if_neg (by omega), if_pos (by omega)]
      · rw [if_neg (by omega), if_neg (by omega), if_pos (by omega)]
      · rw [if_neg (by omega), if_pos (by omega)]
      · rw [if_pos (by omega)]
    · have hx := hx x (by omega)
      refine ⟨?_, ?_, ?_, ?_⟩
      · rw [if_neg (by omega), if_neg (by omega), if_neg (by omega), if_neg (by omega)]; exact hx.1
      · rw [if_neg (by omega), if_neg (by omega), if_neg (by omega), if_neg (by omega)]; exact hx.2.1
      · rw [if_neg (by omega), if_neg (by omega), if_neg (by omega), if_neg (by omega)]; exact hx.2.2.1
      · rw [if_neg (by omega), if_neg (by omega), if_neg (by omega), if_neg (by omega)]; exact hx.2.2.2

/-- Limiting to a byte does not increase distances. -/
theorem limit_lip (a b : ℝ) : |limit a - limit b| ≤ |a - b| := by
  unfold limit
  have h1 : |max 0 (min 255 a) - max 0 (min 255 b)| ≤ |min 255 a - min 255 b| := by
    rw [max_comm 0, max_comm 0]
    exact abs_max_sub_max_le_abs _ _ _
  have h2 := abs_min_sub_min_le_max 255 a 255 b
  rw [sub_self, abs_zero, max_eq_right (abs_nonneg _)] at h2
  exact h1.trans h2

theorem stbClamp_limit (z : Int) : ((stbClamp z).toNat : ℝ) = limit z := by
  unfold stbClamp limit
  split
  · rename_i h
    have : (z : ℝ) < 0 := by exact_mod_cast h
    rw [min_eq_right (by linarith), max_eq_left this.le]
    simp
  · rename_i h
    split
    · rename_i h'
      have : (255 : ℝ) < z := by exact_mod_cast h'
      rw [min_eq_left this.le, max_eq_right (by norm_num)]
      simp
    · rename_i h'
      have h1 : (0 : ℝ) ≤ z := by exact_mod_cast (not_lt.1 h)
      have h2 : (z : ℝ) ≤ 255 := by exact_mod_cast (not_lt.1 h')
      rw [min_eq_right h2, max_eq_right h1, UInt8.toNat_ofNat', Nat.mod_eq_of_lt (by omega)]
      have : ((z.toNat : ℤ) : ℝ) = z := by rw [Int.toNat_of_nonneg (by omega)]
      exact_mod_cast this

/-- If the value is near, the byte is as near to the limited value. -/
theorem stbClamp_near {z : Int} {x e : ℝ} (h : |(z : ℝ) - x| ≤ e) : |((stbClamp z).toNat : ℝ) - limit x| ≤ e := by
  rw [stbClamp_limit]
  exact (limit_lip _ _).trans h

end FlatCV
