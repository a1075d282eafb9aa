/-
The two passes of the Gaussian blur.
-/
import Verif.Lemmas.BlurTaps
import Verif.Lemmas.Image
import Verif.Spec.Call

namespace FlatCV

open Model Finset

/-- The value of a blurred pixel, in terms of the exact sums. -/
def PixVal (K : ℕ → ℚ) (R n i : ℕ) (v : ℕ → ℕ → UInt8) (b : ℕ → UInt8) : Prop :=
  ∀ c, c < 3 →
    tapSum R n i (fun j => K j * (v (i + j - R) c).toNat) (2 * R + 1) / tapSum R n i K (2 * R + 1)
      - 9 / 8 + 1 / 1000 < ((b c).toNat : ℚ) ∧
    ((b c).toNat : ℚ) ≤
      tapSum R n i (fun j => K j * (v (i + j - R) c).toNat) (2 * R + 1) / tapSum R n i K (2 * R + 1)
      + 1 / 8 - 1 / 1000

/-- The four bytes of a pixel stored at `k`. -/
def OffAt (out : List UInt8) (k : ℕ) (b : ℕ → UInt8) : Prop :=
  out[k]? = some (b 0) ∧ out[k + 1]? = some (b 1) ∧ out[k + 2]? = some (b 2) ∧ out[k + 3]? = some 255

theorem blurPixel_ok {r : ℚ} {R : ℕ} (hR : ⌊r⌋ = (R : ℤ)) (h0 : 0 ≤ r) (h2 : r ≤ 1000) {K : ℕ → ℚ}
    (hK : ∀ j, j ≤ 2 * R → 1 / 262144 ≤ K j ∧ K j ≤ 2 ^ 75) {i n : ℕ} (hi : i < n)
    (v : ℕ → ℕ → UInt8) {body : Int → Int → BlurAcc → CM BlurAcc}
    (hbody : ∀ j, j ≤ 2 * R → ∀ a, body (-(R : Int) + j) R a =
      if InWin R n i j then .ok (tapAcc (K j) (v (i + j - R) 0) (v (i + j - R) 1) (v (i + j - R) 2) a)
      else .ok a) :
    ∃ a b, blurTaps r body = .ok a ∧ PixVal K R n i v b ∧
      ∀ (out : List UInt8) (V : ℕ → Prop) (s : Cells UInt8) (k : ℕ), Filled out V s → OffAt out k b →
        k + 3 < 4294967296 →
        Ok (blurStore s k a) (Filled out (fun j => V j ∨ (k ≤ j ∧ j ≤ k + 3))) := by
  have hfl2 : R ≤ 1000 := by
    have hfl := Int.floor_le r
    rw [hR] at hfl
    have : ((R : ℤ) : ℚ) ≤ ((1000 : ℤ) : ℚ) := by push_cast at hfl ⊢; linarith
    have : (R : ℤ) ≤ 1000 := by exact_mod_cast this
    omega
  obtain ⟨W, r', g', b', e, HW, Hr, Hg, Hb⟩ := blurTaps_ok hR h0 h2 hK v hbody
  have hKp : ∀ j, j ≤ 2 * R → 0 < K j := fun j hj => lt_of_lt_of_le (by norm_num) (hK j hj).1
  have hpos := tapSum_pos hi hKp
  have hle := fun c => tapSum_le (n := n) (i := i) (fun j => v (i + j - R) c) hKp
  obtain ⟨q0, b0, d0, t0, l0, u0⟩ := quot_byte (by omega) Hr HW hpos (hle 0)
  obtain ⟨q1, b1, d1, t1, l1, u1⟩ := quot_byte (by omega) Hg HW hpos (hle 1)
  obtain ⟨q2, b2, d2, t2, l2, u2⟩ := quot_byte (by omega) Hb HW hpos (hle 2)
  refine ⟨_, fun c => if c = 0 then b0 else if c = 1 then b1 else b2, e, ?_, ?_⟩
  · intro c hc
    rcases (show c = 0 ∨ c = 1 ∨ c = 2 by omega) with rfl | rfl | rfl
    · exact ⟨by simpa using l0, by simpa using u0⟩
    · exact ⟨by simpa using l1, by simpa using u1⟩
    · exact ⟨by simpa using l2, by simpa using u2⟩
  · rintro out V s k hs ⟨a0, a1, a2, a3⟩ hk
    simp only [if_true] at a0
    simp only [if_true, one_ne_zero, if_false] at a1
    simp only [show (2 : ℕ) ≠ 0 by omega, show (2 : ℕ) ≠ 1 by omega, if_false] at a2
    unfold blurStore
    rw [d0, d1, d2, u32_eq (by omega), u32_eq (by omega), u32_eq (by omega)]
    simp only [ok_bind, t0, t1, t2]
    refine Ok.bind (hs.wr a0) fun s1 hs1 => ?_
    refine Ok.bind (hs1.wr a1) fun s2 hs2 => ?_
    refine Ok.bind (hs2.wr a2) fun s3 hs3 => ?_
    refine (hs3.wr a3).mono fun s4 hs4 => hs4.mono fun j _ hj => ?_
    rcases hj with h | h
    · exact .inl (.inl (.inl (.inl h)))
    · rcases (show j = k ∨ j = k + 1 ∨ j = k + 2 ∨ j = k + 3 by omega) with h | h | h | h
      · exact .inl (.inl (.inl (.inr h)))
      · exact .inl (.inl (.inr h))
      · exact .inl (.inr h)
      · exact .inr h

theorem i32_wrap {z : Int} (h : -2147483648 ≤ z ∧ z < 2147483648) : i32OfU32 (u32OfInt z) = z := by
  unfold i32OfU32 u32OfInt
  split_ifs <;> omega

/-- What the passes need to know about the kernel block. -/
def KerCells (ker : Cells Dbl) (R : ℕ) (K : ℕ → ℚ) : Prop :=
  ∀ j, j ≤ 2 * R → rd ker j = .ok (.fin (K j))

theorem blurTap_ok {ker : Cells Dbl} {R : ℕ} {K : ℕ → ℚ} (hker : KerCells ker R K) {j : ℕ}
    (hj : j ≤ 2 * R) {src : ℕ → CM UInt8} {k : ℕ} {r g b : UInt8} (hk : k + 2 < 4294967296)
    (e0 : src k = .ok r) (e1 : src (k + 1) = .ok g) (e2 : src (k + 2) = .ok b) (a : BlurAcc) :
    blurTap ker (-(R : Int) + j + R) src k a = .ok (tapAcc (K j) r g b a) := by
  unfold blurTap
  rw [show -(R : Int) + j + R = (j : Int) by omega]
  have : rdZ ker (j : Int) = .ok (.fin (K j)) := by
    unfold rdZ
    rw [if_pos (by omega), Int.toNat_natCast, hker j hj]
  rw [this, e0, u32_eq (by omega), u32_eq (by omega), e1, e2]
  rfl

theorem at_mkImg {w h : ℕ} {f : ℕ → ℕ → ℕ → UInt8} {x y : ℕ} (hx : x < w) (hy : y < h) :
    OffAt (mkImg w h 4 (fun x y c => if c < 3 then f x y c else 255)) ((y * w + x) * 4) (f x y) := by
  refine ⟨?_, ?_, ?_, ?_⟩
  · have := getElem?_px (mkImg_length w h 4 (fun x y c => if c < 3 then f x y c else 255)) hx hy (c := 0) (by omega)
    rw [px_mkImg hx hy (by omega)] at this
    simpa using this
  · have := getElem?_px (mkImg_length w h 4 (fun x y c => if c < 3 then f x y c else 255)) hx hy (c := 1) (by omega)
    rw [px_mkImg hx hy (by omega)] at this
    simpa using this
  · have := getElem?_px (mkImg_length w h 4 (fun x y c => if c < 3 then f x y c else 255)) hx hy (c := 2) (by omega)
    rw [px_mkImg hx hy (by omega)] at this
    simpa using this
  · have := getElem?_px (mkImg_length w h 4 (fun x y c => if c < 3 then f x y c else 255)) hx hy (c := 3) (by omega)
    rw [px_mkImg hx hy (by omega)] at this
    simpa using this

/-- Every position belongs to a pixel. -/
theorem pixel_of {w h k : ℕ} (hk : k < w * h * 4) :
    ∃ y, y < h ∧ ∃ x, x < w ∧ (y * w + x) * 4 ≤ k ∧ k ≤ (y * w + x) * 4 + 3 := by
  obtain ⟨x, y, c, hx, hy, hc, rfl⟩ := idx3_surj (w := w) (h := h) (ch := 4) hk
  exact ⟨y, hy, x, hx, by omega, by omega⟩

/-- Horizontal pass. -/
theorem blurRows_ok {w h : ℕ} {d : List UInt8} (hw : 0 < w) (hh : 0 < h) (hd : d.length = w * h * 4)
    (hsz : w * h * 4 < 4294967296) {r : ℚ} {R : ℕ} (hR : ⌊r⌋ = (R : ℤ)) (h0 : 0 ≤ r) (h2 : r ≤ 1000)
    {K : ℕ → ℚ} (hK : ∀ j, j ≤ 2 * R → 1 / 262144 ≤ K j ∧ K j ≤ 2 ^ 75) {ker : Cells Dbl}
    (hker : KerCells ker R K) :
    ∃ f : ℕ → ℕ → ℕ → UInt8,
      (∀ x, x < w → ∀ y, y < h → PixVal K R w x (fun x' c => px w 4 d x' y c) (f x y)) ∧
      ∀ s : Cells UInt8, s.length = w * h * 4 →
        blurRows w h (w * h * 4) r ker d s =
          .ok ((mkImg w h 4 (fun x y c => if c < 3 then f x y c else 255)).map some) := by
  have hfl2 : R ≤ 1000 := by
    have hfl := Int.floor_le r
    rw [hR] at hfl
    have : ((R : ℤ) : ℚ) ≤ ((1000 : ℤ) : ℚ) := by push_cast at hfl ⊢; linarith
    have : (R : ℤ) ≤ 1000 := by exact_mod_cast this
    omega
  have hwle : w ≤ w * h := Nat.le_mul_of_pos_right w hh
  have hhle : h ≤ w * h := Nat.le_mul_of_pos_left h hw
  have hpix : ∀ x, x < w → ∀ y, y < h → _ := fun x hx y hy =>
    blurPixel_ok hR h0 h2 hK hx (fun x' c => px w 4 d x' y c)
      (body := fun k rad a =>
        let x_offset := i32OfU32 (u32OfInt (x + k))
        if x_offset < 0 ∨ x_offset.toNat ≥ w then pure a
        else
          let img_index := u32 (y * w + x_offset.toNat)
          let img_rgba_index := u32 (img_index * 4)
          if u32 (img_rgba_index + 2) ≥ w * h * 4 then pure a
          else blurTap ker (k + rad) (rdIn d) img_rgba_index a) (by
      intro j hj a
      have e1 : i32OfU32 (u32OfInt ((x : Int) + (-(R : Int) + j))) = (x : Int) + (-(R : Int) + j) :=
        i32_wrap (by omega)
      simp only [e1]
      by_cases hin : InWin R w x j
      · rw [if_pos hin]
        unfold InWin at hin
        have e2 : ((x : Int) + (-(R : Int) + j)).toNat = x + j - R := by omega
        rw [if_neg (by omega), e2]
        have hlt := idx3_lt (ch := 4) (show x + j - R < w by omega) hy (show 2 < 4 by omega)
        have hid := idx_lt (show x + j - R < w by omega) hy
        rw [u32_eq (n := y * w + (x + j - R)) (by omega), u32_eq (n := (y * w + (x + j - R)) * 4) (by omega),
          u32_eq (n := (y * w + (x + j - R)) * 4 + 2) (by omega), if_neg (by omega)]
        have g : ∀ c, c < 4 → rdIn d ((y * w + (x + j - R)) * 4 + c) = .ok (px w 4 d (x + j - R) y c) :=
          fun c hc => rdIn_ok (getElem?_px hd (by omega) hy hc)
        exact blurTap_ok hker hj (by omega) (g 0 (by omega)) (g 1 (by omega)) (g 2 (by omega)) a
      · rw [if_neg hin]
        unfold InWin at hin
        rw [if_pos (by omega)]
        rfl)
  choose! A B hA hB hS using hpix
  refine ⟨B, hB, fun s hs => ?_⟩
  have hlen := mkImg_length w h 4 (fun x y c => if c < 3 then B x y c else 255)
  have hst : Filled (mkImg w h 4 (fun x y c => if c < 3 then B x y c else 255)) (fun _ => False) s :=
    ⟨by rw [hs, hlen], fun _ _ hf => hf.elim⟩
  unfold blurRows
  rw [forU32_eq (by omega)]
  have := Filled.loop2 (n := h) (m := w)
    (body := fun y x out => do
      let a ← blurTaps r fun k rad a =>
        let x_offset := i32OfU32 (u32OfInt (x + k))
        if x_offset < 0 ∨ x_offset.toNat ≥ w then pure a
        else
          let img_index := u32 (y * w + x_offset.toNat)
          let img_rgba_index := u32 (img_index * 4)
          if u32 (img_rgba_index + 2) ≥ w * h * 4 then pure a
          else blurTap ker (k + rad) (rdIn d) img_rgba_index a
      blurStore out (u32 (u32 (y * w + x) * 4)) a)
    (fun y x k => (y * w + x) * 4 ≤ k ∧ k ≤ (y * w + x) * 4 + 3) hst (by
      intro y hy x hx V t ht
      have hlt := idx3_lt (ch := 4) hx hy (show 3 < 4 by omega)
      have hid := idx_lt hx hy
      simp only []
      rw [hA x hx y hy]
      simp only [ok_bind]
      rw [u32_eq (n := y * w + x) (by omega), u32_eq (n := (y * w + x) * 4) (by omega)]
      exact hS x hx y hy _ V t _ ht (at_mkImg hx hy) (by omega))
  obtain ⟨t, et, ht⟩ := this
  have := ht.done (by
    intro k hk
    rw [hlen] at hk
    exact .inr (pixel_of hk))
  subst this
  rw [← et]
  exact forN_congr fun y hy t => forU32_eq (by omega) _ _

/-- Vertical pass. -/
theorem blurCols_ok {w h : ℕ} {d : List UInt8} (hw : 0 < w) (hh : 0 < h) (hd : d.length = w * h * 4)
    (hsz : w * h * 4 < 4294967296) {r : ℚ} {R : ℕ} (hR : ⌊r⌋ = (R : ℤ)) (h0 : 0 ≤ r) (h2 : r ≤ 1000)
    {K : ℕ → ℚ} (hK : ∀ j, j ≤ 2 * R → 1 / 262144 ≤ K j ∧ K j ≤ 2 ^ 75) {ker : Cells Dbl}
    (hker : KerCells ker R K) :
    ∃ f : ℕ → ℕ → ℕ → UInt8,
      (∀ x, x < w → ∀ y, y < h → PixVal K R h y (fun y' c => px w 4 d x y' c) (f x y)) ∧
      ∀ s : Cells UInt8, s.length = w * h * 4 →
        blurCols w h r ker (d.map some) s =
          .ok ((mkImg w h 4 (fun x y c => if c < 3 then f x y c else 255)).map some) := by
  have hfl2 : R ≤ 1000 := by
    have hfl := Int.floor_le r
    rw [hR] at hfl
    have : ((R : ℤ) : ℚ) ≤ ((1000 : ℤ) : ℚ) := by push_cast at hfl ⊢; linarith
    have : (R : ℤ) ≤ 1000 := by exact_mod_cast this
    omega
  have hwle : w ≤ w * h := Nat.le_mul_of_pos_right w hh
  have hhle : h ≤ w * h := Nat.le_mul_of_pos_left h hw
  have hpix : ∀ x, x < w → ∀ y, y < h → _ := fun x hx y hy =>
    blurPixel_ok hR h0 h2 hK hy (fun y' c => px w 4 d x y' c)
      (body := fun k rad a =>
        let y_offset := i32OfU32 (u32OfInt (y + k))
        if y_offset < 0 ∨ y_offset.toNat ≥ h then pure a
        else
          let img_index := u32 (y_offset.toNat * w + x)
          let img_rgba_index := u32 (img_index * 4)
          blurTap ker (k + rad) (rd (d.map some)) img_rgba_index a) (by
      intro j hj a
      have e1 : i32OfU32 (u32OfInt ((y : Int) + (-(R : Int) + j))) = (y : Int) + (-(R : Int) + j) :=
        i32_wrap (by omega)
      simp only [e1]
      by_cases hin : InWin R h y j
      · rw [if_pos hin]
        unfold InWin at hin
        have e2 : ((y : Int) + (-(R : Int) + j)).toNat = y + j - R := by omega
        rw [if_neg (by omega), e2]
        have hlt := idx3_lt (ch := 4) hx (show y + j - R < h by omega) (show 2 < 4 by omega)
        have hid := idx_lt hx (show y + j - R < h by omega)
        rw [u32_eq (n := (y + j - R) * w + x) (by omega), u32_eq (n := ((y + j - R) * w + x) * 4) (by omega)]
        have g : ∀ c, c < 4 → rd (d.map some) (((y + j - R) * w + x) * 4 + c) = .ok (px w 4 d x (y + j - R) c) :=
          fun c hc => by rw [rd_map_some]; exact rdIn_ok (getElem?_px hd hx (by omega) hc)
        exact blurTap_ok hker hj (by omega) (g 0 (by omega)) (g 1 (by omega)) (g 2 (by omega)) a
      · rw [if_neg hin]
        unfold InWin at hin
        rw [if_pos (by omega)]
        rfl)
  choose! A B hA hB hS using hpix
  refine ⟨B, hB, fun s hs => ?_⟩
  have hlen := mkImg_length w h 4 (fun x y c => if c < 3 then B x y c else 255)
  have hst : Filled (mkImg w h 4 (fun x y c => if c < 3 then B x y c else 255)) (fun _ => False) s :=
    ⟨by rw [hs, hlen], fun _ _ hf => hf.elim⟩
  unfold blurCols
  rw [forU32_eq (by omega)]
  have := Filled.loop2 (n := w) (m := h)
    (body := fun x y out => do
      let a ← blurTaps r fun k rad a =>
        let y_offset := i32OfU32 (u32OfInt (y + k))
        if y_offset < 0 ∨ y_offset.toNat ≥ h then pure a
        else
          let img_index := u32 (y_offset.toNat * w + x)
          let img_rgba_index := u32 (img_index * 4)
          blurTap ker (k + rad) (rd (d.map some)) img_rgba_index a
      blurStore out (u32 (u32 (y * w + x) * 4)) a)
    (fun x y k => (y * w + x) * 4 ≤ k ∧ k ≤ (y * w + x) * 4 + 3) hst (by
      intro x hx y hy V t ht
      have hlt := idx3_lt (ch := 4) hx hy (show 3 < 4 by omega)
      have hid := idx_lt hx hy
      simp only []
      rw [hA x hx y hy]
      simp only [ok_bind]
      rw [u32_eq (n := y * w + x) (by omega), u32_eq (n := (y * w + x) * 4) (by omega)]
      exact hS x hx y hy _ V t _ ht (at_mkImg hx hy) (by omega))
  obtain ⟨t, et, ht⟩ := this
  have := ht.done (by
    intro k hk
    rw [hlen] at hk
    obtain ⟨y, hy, x, hx, hh⟩ := pixel_of hk
    exact .inr ⟨x, hx, y, hy, hh⟩)
  subst this
  rw [← et]
  exact forN_congr fun y hy t => forU32_eq (by omega) _ _

end FlatCV
