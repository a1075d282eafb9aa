import Verif.Model.Draw
import Verif.Spec.Draw
import Verif.Lemmas.Image
import Verif.Lemmas.Mem
import Verif.Lemmas.Trim
import Mathlib.Tactic.Linarith

namespace FlatCV
open Model Spec

/-! ### Luma -/

/-- The value of the expression before the conversion. -/
def lumaQ (r g b : ℕ) : ℚ :=
  Fmt.b64.rnd (Fmt.b64.rnd (Fmt.b64.rnd (dlit (299 / 1000) * r) +
    Fmt.b64.rnd (dlit (587 / 1000) * g)) + Fmt.b64.rnd (dlit (114 / 1000) * b))

theorem dlit_nonneg {q : ℚ} (h : 0 ≤ q) : 0 ≤ dlit q := rnd_nonneg _ h

theorem lumaQ_mono {r g b r' g' b' : ℕ} (h1 : r ≤ r') (h2 : g ≤ g') (h3 : b ≤ b') :
    lumaQ r g b ≤ lumaQ r' g' b' := by
  have k : ∀ (q : ℚ) (m n : ℕ), 0 ≤ q → m ≤ n →
      Fmt.b64.rnd (dlit q * m) ≤ Fmt.b64.rnd (dlit q * n) := fun q m n hq h =>
    rnd_mono _ (mul_le_mul_of_nonneg_left (by exact_mod_cast h) (dlit_nonneg hq))
  unfold lumaQ
  refine rnd_mono _ (add_le_add (rnd_mono _ (add_le_add ?_ ?_)) ?_)
  · exact k _ _ _ (by norm_num) h1
  · exact k _ _ _ (by norm_num) h2
  · exact k _ _ _ (by norm_num) h3

theorem lumaQ_nonneg (r g b : ℕ) : 0 ≤ lumaQ r g b := by
  have k : ∀ (q : ℚ) (m : ℕ), 0 ≤ q → 0 ≤ Fmt.b64.rnd (dlit q * m) := fun q m hq =>
    rnd_nonneg _ (mul_nonneg (dlit_nonneg hq) (by positivity))
  exact rnd_nonneg _ (add_nonneg (rnd_nonneg _ (add_nonneg (k _ _ (by norm_num))
    (k _ _ (by norm_num)))) (k _ _ (by norm_num)))

/-- Evaluate a `double` rounding in a known binade. -/
theorem rnd64_at {x : ℚ} (k m : ℤ) (h1 : 2 ^ k ≤ x) (h2 : x < 2 ^ (k + 1)) (hk : -1022 ≤ k)
    (hm : rne (x / 2 ^ (k - 52)) = m) : Fmt.b64.rnd x = m * 2 ^ (k - 52) := by
  have hx : 0 < x := lt_of_lt_of_le (two_zpow_pos k) h1
  rw [rnd_binade (k := k) _ (by rwa [abs_of_pos hx]) (by rwa [abs_of_pos hx]) (by
    have e53 : ((Fmt.b64.p : ℤ) - 1) = 52 := rfl
    have emin : Fmt.b64.emin = -1074 := rfl
    rw [e53, emin]; omega)]
  rw [show ((Fmt.b64.p : ℤ) - 1) = 52 from rfl, hm]

/-- The luma of white is exactly `255.0`. -/
theorem lumaQ_white : lumaQ 255 255 255 = 255 := by
  have a : dlit (299 / 1000) = 5386305154335113 / 2 ^ 54 := by
    unfold dlit
    rw [rnd64_at (-2) 5386305154335113 (by norm_num) (by norm_num) (by norm_num)
      (by norm_num [rne])]
    norm_num
  have b : dlit (587 / 1000) = 5287225962532962 / 2 ^ 53 := by
    unfold dlit
    rw [rnd64_at (-1) 5287225962532962 (by norm_num) (by norm_num) (by norm_num)
      (by norm_num [rne])]
    norm_num
  have c : dlit (114 / 1000) = 8214565720323785 / 2 ^ 56 := by
    unfold dlit
    rw [rnd64_at (-4) 8214565720323785 (by norm_num) (by norm_num) (by norm_num)
      (by norm_num [rne])]
    norm_num
  have ea : Fmt.b64.rnd (dlit (299 / 1000) * (255 : ℕ)) = 5365264899825991 / 2 ^ 46 := by
    rw [a, rnd64_at 6 5365264899825991 (by norm_num) (by norm_num) (by norm_num)
      (by norm_num [rne])]
    norm_num
  have eb : Fmt.b64.rnd (dlit (587 / 1000) * (255 : ℕ)) = 2633286368058409 / 2 ^ 44 := by
    rw [b, rnd64_at 7 (2633286368058409 * 2) (by norm_num) (by norm_num) (by norm_num)
      (by norm_num [rne])]
    norm_num
  have ec : Fmt.b64.rnd (dlit (114 / 1000) * (255 : ℕ)) = 4091238786489385 / 2 ^ 47 := by
    rw [c, rnd64_at 4 (4091238786489385 * 2) (by norm_num) (by norm_num) (by norm_num)
      (by norm_num [rne])]
    norm_num
  have ed : Fmt.b64.rnd (5365264899825991 / 2 ^ 46 + 2633286368058409 / 2 ^ 44)
      = 3974602593014907 / 2 ^ 44 := by
    rw [rnd64_at 7 (3974602593014907 * 2) (by norm_num) (by norm_num) (by norm_num)
      (by norm_num [rne])]
    norm_num
  unfold lumaQ
  rw [ea, eb, ec, ed, rnd64_at 7 (255 * 2 ^ 45) (by norm_num) (by norm_num) (by norm_num)
      (by norm_num [rne])]
  norm_num

theorem lumaQ_le (r g b : UInt8) : lumaQ r.toNat g.toNat b.toNat ≤ 255 := by
  rw [← lumaQ_white]
  have := r.toNat_lt; have := g.toNat_lt; have := b.toNat_lt
  exact lumaQ_mono (by omega) (by omega) (by omega)

/-- The gray level drawn on one-channel images. -/
def lumaOf (r g b : UInt8) : UInt8 := u8OfInt ⌊lumaQ r.toNat g.toNat b.toNat⌋

theorem dlit_le_one {q : ℚ} (h : q ≤ 1) : dlit q ≤ 1 := by
  have := rnd_mono Fmt.b64 h
  have e := rnd64_int (m := 1) (by norm_num)
  push_cast at e
  rw [e] at this
  exact this

theorem drawLuma_eq (r g b : UInt8) : drawLuma r g b = .ok (lumaOf r g b) := by
  have hr := r.toNat_lt; have hg := g.toNat_lt; have hb := b.toNat_lt
  have k : ∀ (q : ℚ) (m : ℕ), 0 ≤ q → q ≤ 1 → m < 2 ^ 8 →
      0 ≤ dlit q * m ∧ dlit q * m ≤ 256 := fun q m h0 h1 hm => by
    have a := dlit_nonneg h0
    have b := dlit_le_one h1
    have c : (m : ℚ) ≤ 256 := by exact_mod_cast (by omega : m ≤ 256)
    have c0 : (0 : ℚ) ≤ m := by positivity
    exact ⟨mul_nonneg a c0, by nlinarith⟩
  have k2 : ∀ (q : ℚ) (m : ℕ), 0 ≤ q → q ≤ 1 → m < 2 ^ 8 →
      0 ≤ Fmt.b64.rnd (dlit q * m) ∧ Fmt.b64.rnd (dlit q * m) ≤ 256 := fun q m h0 h1 hm => by
    obtain ⟨a, b⟩ := k q m h0 h1 hm
    refine ⟨rnd_nonneg _ a, rnd_le _ b ?_⟩
    have e := rnd64_int (m := 256) (by norm_num)
    exact_mod_cast e
  have o : ∀ x : ℚ, 0 ≤ x → x ≤ 1000 → f64 x = .ok (Fmt.b64.rnd x) := fun x h0 h1 =>
    f64_ok (by rw [abs_of_nonneg h0]; exact h1.trans (by norm_num))
  obtain ⟨a1, a2⟩ := k (299 / 1000) r.toNat (by norm_num) (by norm_num) hr
  obtain ⟨b1, b2⟩ := k (587 / 1000) g.toNat (by norm_num) (by norm_num) hg
  obtain ⟨c1, c2⟩ := k (114 / 1000) b.toNat (by norm_num) (by norm_num) hb
  obtain ⟨a3, a4⟩ := k2 (299 / 1000) r.toNat (by norm_num) (by norm_num) hr
  obtain ⟨b3, b4⟩ := k2 (587 / 1000) g.toNat (by norm_num) (by norm_num) hg
  obtain ⟨c3, c4⟩ := k2 (114 / 1000) b.toNat (by norm_num) (by norm_num) hb
  unfold drawLuma
  rw [o _ a1 (by linarith)]
  simp only [ok_bind]
  rw [o _ b1 (by linarith)]
  simp only [ok_bind]
  rw [o _ c1 (by linarith)]
  simp only [ok_bind]
  rw [o _ (by linarith) (by linarith)]
  simp only [ok_bind]
  have s1 : Fmt.b64.rnd (Fmt.b64.rnd (dlit (299 / 1000) * r.toNat) +
      Fmt.b64.rnd (dlit (587 / 1000) * g.toNat)) ≤ 512 := by
    refine rnd_le _ (by linarith) ?_
    have e := rnd64_int (m := 512) (by norm_num)
    exact_mod_cast e
  have s0 := rnd_nonneg Fmt.b64 (add_nonneg a3 b3)
  rw [o _ (by linarith) (by linarith)]
  simp only [ok_bind]
  exact castU8_ok (lumaQ_nonneg _ _ _) (lt_of_le_of_lt (lumaQ_le r g b) (by norm_num))

theorem lumaOf_toNat (r g b : UInt8) :
    ((lumaOf r g b).toNat : ℤ) = ⌊lumaQ r.toNat g.toNat b.toNat⌋ := by
  have h0 : 0 ≤ ⌊lumaQ r.toNat g.toNat b.toNat⌋ := Int.floor_nonneg.2 (lumaQ_nonneg _ _ _)
  have h1 : ⌊lumaQ r.toNat g.toNat b.toNat⌋ < 256 :=
    Int.floor_lt.2 (lt_of_le_of_lt (lumaQ_le r g b) (by norm_num))
  unfold lumaOf u8OfInt
  simp only [UInt8.toNat_ofNat']
  omega

/-- The computed luma is close to the exact one. -/
theorem lumaQ_err (r g b : UInt8) :
    |lumaQ r.toNat g.toNat b.toNat -
      (299 * r.toNat + 587 * g.toNat + 114 * b.toNat : ℕ) / 1000| < 1 / 1000 := by
  have hr := r.toNat_lt; have hg := g.toNat_lt; have hb := b.toNat_lt
  have hr' : (r.toNat : ℚ) ≤ 255 := by exact_mod_cast (by omega : r.toNat ≤ 255)
  have hg' : (g.toNat : ℚ) ≤ 255 := by exact_mod_cast (by omega : g.toNat ≤ 255)
  have hb' : (b.toNat : ℚ) ≤ 255 := by exact_mod_cast (by omega : b.toNat ≤ 255)
  have hr0 : (0 : ℚ) ≤ r.toNat := by positivity
  have hg0 : (0 : ℚ) ≤ g.toNat := by positivity
  have hb0 : (0 : ℚ) ≤ b.toNat := by positivity
  have err : ∀ x : ℚ, 0 ≤ x → x ≤ 1000 → x - 1 / 10 ^ 9 ≤ Fmt.b64.rnd x ∧
      Fmt.b64.rnd x ≤ x + 1 / 10 ^ 9 := by
    intro x h0 h1
    have h := rnd64_err x
    rw [abs_of_nonneg h0, abs_le] at h
    have e : (1 : ℚ) / 2 ^ 1075 ≤ 1 / 2 ^ 100 :=
      one_div_le_one_div_of_le (by positivity) (pow_le_pow_right₀ (by norm_num) (by norm_num))
    generalize (1 : ℚ) / 2 ^ 1075 = ε at *
    norm_num at *
    constructor <;> linarith
  have pr : ∀ (q m : ℚ), 0 ≤ q → q ≤ 1 → 0 ≤ m → m ≤ 255 →
      q * m - 1 / 10 ^ 6 ≤ Fmt.b64.rnd (dlit q * m) ∧
      Fmt.b64.rnd (dlit q * m) ≤ q * m + 1 / 10 ^ 6 ∧ 0 ≤ Fmt.b64.rnd (dlit q * m) := by
    intro q m h0 h1 m0 m1
    have a := err q h0 (by linarith)
    have a0 := dlit_nonneg h0
    have a1 := dlit_le_one h1
    have : dlit q = Fmt.b64.rnd q := rfl
    rw [← this] at a
    have b0 : 0 ≤ dlit q * m := mul_nonneg a0 m0
    have b := err (dlit q * m) b0 (by nlinarith)
    have c1 : dlit q * m ≤ q * m + 255 / 10 ^ 9 := by nlinarith
    have c2 : q * m - 255 / 10 ^ 9 ≤ dlit q * m := by nlinarith
    norm_num at *
    exact ⟨by linarith, by linarith, rnd_nonneg _ b0⟩
  obtain ⟨p1, p2, p3⟩ := pr (299 / 1000) r.toNat (by norm_num) (by norm_num) hr0 hr'
  obtain ⟨q1, q2, q3⟩ := pr (587 / 1000) g.toNat (by norm_num) (by norm_num) hg0 hg'
  obtain ⟨u1, u2, u3⟩ := pr (114 / 1000) b.toNat (by norm_num) (by norm_num) hb0 hb'
  unfold lumaQ
  generalize Fmt.b64.rnd (dlit (299 / 1000) * r.toNat) = A at *
  generalize Fmt.b64.rnd (dlit (587 / 1000) * g.toNat) = B at *
  generalize Fmt.b64.rnd (dlit (114 / 1000) * b.toNat) = C at *
  norm_num at p1 p2 q1 q2 u1 u2
  obtain ⟨s1, s2⟩ := err (A + B) (by linarith) (by linarith)
  have s3 := rnd_nonneg Fmt.b64 (add_nonneg p3 q3)
  generalize Fmt.b64.rnd (A + B) = D at *
  norm_num at s1 s2
  obtain ⟨t1, t2⟩ := err (D + C) (by linarith) (by linarith)
  generalize Fmt.b64.rnd (D + C) = E at *
  norm_num at t1 t2
  push_cast
  rw [abs_lt]
  constructor <;> linarith

theorem lumaOf_isLuma (r g b : UInt8) : IsLuma r g b (lumaOf r g b) := by
  have h := lumaQ_err r g b
  have e := lumaOf_toNat r g b
  have f1 := Int.floor_le (lumaQ r.toNat g.toNat b.toNat)
  have f2 := Int.lt_floor_add_one (lumaQ r.toNat g.toNat b.toNat)
  rw [← e] at f1 f2
  unfold IsLuma
  simp only
  generalize lumaQ r.toNat g.toNat b.toNat = x at *
  generalize 299 * r.toNat + 587 * g.toNat + 114 * b.toNat = s at *
  generalize (lumaOf r g b).toNat = L at *
  push_cast at f1 f2
  rw [abs_lt] at h
  have a1 : (1000 * L : ℚ) < s + 1 := by linarith
  have a2 : (s : ℚ) < 1000 * L + 1000 + 1 := by linarith
  have b1 : 1000 * L < s + 1 := by exact_mod_cast a1
  have b2 : s < 1000 * L + 1000 + 1 := by exact_mod_cast a2
  omega

/-! ### Painting pixels -/

theorem wrIn_px {w h ch : Nat} {e : List UInt8} (he : e.length = w * h * ch) {X Y c : Nat}
    (hX : X < w) (hY : Y < h) (hc : c < ch) (v : UInt8) :
    ∃ e' : List UInt8, wrIn e ((Y * w + X) * ch + c) v = .ok e' ∧ e'.length = w * h * ch ∧
      ∀ x y k, x < w → y < h → k < ch →
        px w ch e' x y k = if x = X ∧ y = Y ∧ k = c then v else px w ch e x y k := by
  have hlt := idx3_lt hX hY hc
  refine ⟨e.set ((Y * w + X) * ch + c) v, by simp [wrIn, he, hlt], by simp [he], ?_⟩
  intro x y k hx hy hk
  unfold px
  rw [List.getElem?_set]
  by_cases h1 : x = X ∧ y = Y ∧ k = c
  · obtain ⟨rfl, rfl, rfl⟩ := h1
    simp [he, hlt]
  · rw [if_neg h1, if_neg]
    intro e1
    obtain ⟨a1, a2, a3⟩ := idx3_decode (y := Y) hX hc
    obtain ⟨b1, b2, b3⟩ := idx3_decode (y := y) hx hk
    rw [e1] at a1 a2 a3
    exact h1 ⟨b1.symm.trans a1, b2.symm.trans a2, b3.symm.trans a3⟩

section
variable {P : Plat} {w h ch : Nat} {d : List UInt8}

theorem painted_length (r g b lum : UInt8) (S : Int → Int → Prop) :
    (painted w h ch r g b lum S d).length = w * h * ch := mkImg_length ..

theorem px_painted {r g b lum : UInt8} {S : Int → Int → Prop} {x y c : Nat}
    (hx : x < w) (hy : y < h) (hc : c < ch) (hS : S x y) :
    px w ch (painted w h ch r g b lum S d) x y c
      = paintByte ch r g b lum c (px w ch d x y c) := by
  unfold painted
  rw [px_mkImg hx hy hc, if_pos hS]

theorem px_painted_not {r g b lum : UInt8} {S : Int → Int → Prop} {x y c : Nat}
    (hx : x < w) (hy : y < h) (hc : c < ch) (hS : ¬ S x y) :
    px w ch (painted w h ch r g b lum S d) x y c = px w ch d x y c := by
  unfold painted
  rw [px_mkImg hx hy hc, if_neg hS]

theorem painted_congr {r g b lum : UInt8} {S T : Int → Int → Prop}
    (hST : ∀ x y : Nat, x < w → y < h → (S x y ↔ T x y)) :
    painted w h ch r g b lum S d = painted w h ch r g b lum T d := by
  unfold painted
  refine mkImg_congr fun x y c hx hy _ => ?_
  by_cases hS : S x y
  · rw [if_pos hS, if_pos ((hST x y hx hy).1 hS)]
  · rw [if_neg hS, if_neg (fun hT => hS ((hST x y hx hy).2 hT))]

theorem painted_empty (hd : d.length = w * h * ch) (r g b lum : UInt8) :
    painted w h ch r g b lum (fun _ _ => False) d = d := by
  refine Eq.trans ?_ (mkImg_px hd)
  unfold painted
  exact mkImg_congr fun x y c hx hy hc => if_neg (fun h => h)

theorem paintByte_idem (r g b lum : UInt8) (c : Nat) (v : UInt8) :
    paintByte ch r g b lum c (paintByte ch r g b lum c v) = paintByte ch r g b lum c v := by
  unfold paintByte
  split_ifs <;> rfl

theorem set_pixel_ok (hw : w < 2147483648) (hh : h < 2147483648)
    (hd : d.length = w * h * ch) (hs : d.length ≤ P.szMax) (col : UInt8 × UInt8 × UInt8)
    (S : Int → Int → Prop) (X Y : Int) :
    fcv_set_circle_pixel P w h ch X Y col
        (painted w h ch col.1 col.2.1 col.2.2 (lumaOf col.1 col.2.1 col.2.2) S d)
      = .ok (painted w h ch col.1 col.2.1 col.2.2 (lumaOf col.1 col.2.1 col.2.2)
          (fun a b => S a b ∨ (a = X ∧ b = Y)) d) := by
  obtain ⟨r, g, b⟩ := col
  simp only
  generalize hlum : lumaOf r g b = lum
  unfold fcv_set_circle_pixel
  by_cases h0 : w = 0 ∨ h = 0 ∨ ch = 0
  · rw [if_pos h0]
    have hn : w * h * ch = 0 := by rcases h0 with h | h | h <;> subst h <;> simp
    have : ∀ l : List UInt8, l.length = w * h * ch → l = [] := fun l hl =>
      List.eq_nil_of_length_eq_zero (by omega)
    rw [this _ (painted_length ..), this _ (painted_length ..)]
    rfl
  rw [if_neg h0, i32OfU32_eq hw, i32OfU32_eq hh]
  by_cases hr : X ≥ 0 ∧ X < (w : Int) ∧ Y ≥ 0 ∧ Y < (h : Int)
  swap
  · rw [if_neg hr]
    refine congrArg Except.ok (painted_congr fun x y hx hy => ?_)
    refine ⟨Or.inl, ?_⟩
    rintro (h | ⟨e1, e2⟩)
    · exact h
    · exact absurd ⟨by omega, by omega, by omega, by omega⟩ hr
  rw [if_pos hr]
  obtain ⟨x0, hxw, y0, hyh⟩ := hr
  obtain ⟨X, rfl⟩ := Int.eq_ofNat_of_zero_le x0
  obtain ⟨Y, rfl⟩ := Int.eq_ofNat_of_zero_le y0
  have hX : X < w := by omega
  have hY : Y < h := by omega
  have hch : 0 < ch := by omega
  have hl0 := idx_lt hX hY
  have hl1 := idx3_lt (c := ch - 1) (ch := ch) hX hY (by omega)
  have hle : w * h ≤ w * h * ch := Nat.le_mul_of_pos_right _ hch
  simp only [Int.toNat_natCast]
  rw [P.sz_eq' (n := Y * w) (by omega), P.sz_eq' (n := Y * w + X) (by omega),
    P.sz_eq' (n := (Y * w + X) * ch) (by omega)]
  generalize he : painted w h ch r g b lum S d = e
  have hel : e.length = w * h * ch := by rw [← he]; exact painted_length ..
  -- the target, sample by sample
  have key : ∀ e' : List UInt8, e'.length = w * h * ch →
      (∀ x y k, x < w → y < h → k < ch → px w ch e' x y k =
        if x = X ∧ y = Y then paintByte ch r g b lum k (px w ch e x y k) else px w ch e x y k) →
      e' = painted w h ch r g b lum
        (fun a b => S a b ∨ (a = (X : Int) ∧ b = (Y : Int))) d := by
    intro e' hl hp
    refine img_ext hl (painted_length ..) fun x y k hx hy hk => ?_
    rw [hp x y k hx hy hk]
    by_cases h1 : x = X ∧ y = Y
    · rw [if_pos h1, px_painted hx hy hk (Or.inr ⟨by omega, by omega⟩), ← he]
      by_cases hS : S x y
      · rw [px_painted hx hy hk hS, paintByte_idem]
      · rw [px_painted_not hx hy hk hS]
    · rw [if_neg h1, ← he]
      by_cases hS : S x y
      · rw [px_painted hx hy hk hS, px_painted hx hy hk (Or.inl hS)]
      · rw [px_painted_not hx hy hk hS, px_painted_not hx hy hk]
        rintro (h | ⟨a, b⟩)
        · exact hS h
        · exact h1 ⟨by omega, by omega⟩
  by_cases c1 : ch = 1
  · rw [if_pos c1, drawLuma_eq, hlum]
    simp only [ok_bind]
    obtain ⟨e1, h1, l1, p1⟩ := wrIn_px hel hX hY hch lum
    rw [Nat.add_zero] at h1
    rw [h1, key e1 l1]
    intro x y k hx hy hk
    rw [p1 x y k hx hy hk]
    have : k = 0 := by omega
    simp [this, paintByte, c1]
  rw [if_neg c1]
  by_cases c3 : ch ≥ 3
  · rw [if_pos c3]
    rw [P.sz_eq' (n := (Y * w + X) * ch + 1) (by omega),
      P.sz_eq' (n := (Y * w + X) * ch + 2) (by omega)]
    obtain ⟨e1, h1, l1, p1⟩ := wrIn_px hel hX hY (c := 0) hch r
    obtain ⟨e2, h2, l2, p2⟩ := wrIn_px l1 hX hY (c := 1) (by omega) g
    obtain ⟨e3, h3, l3, p3⟩ := wrIn_px l2 hX hY (c := 2) (by omega) b
    rw [Nat.add_zero] at h1
    rw [h1]
    simp only [ok_bind]
    rw [h2]
    simp only [ok_bind]
    rw [h3]
    simp only [ok_bind]
    by_cases c4 : ch = 4
    · rw [if_pos c4, P.sz_eq' (n := (Y * w + X) * ch + 3) (by omega)]
      obtain ⟨e4, h4, l4, p4⟩ := wrIn_px l3 hX hY (c := 3) (by omega) 255
      rw [h4, key e4 l4]
      intro x y k hx hy hk
      rw [p4 x y k hx hy hk, p3 x y k hx hy hk, p2 x y k hx hy hk, p1 x y k hx hy hk]
      by_cases hxy : x = X ∧ y = Y
      · have : k = 0 ∨ k = 1 ∨ k = 2 ∨ k = 3 := by omega
        rcases this with rfl | rfl | rfl | rfl <;> simp [hxy, paintByte, c4]
      · rw [if_neg (by tauto), if_neg (by tauto), if_neg (by tauto), if_neg (by tauto),
          if_neg hxy]
    · rw [if_neg c4]
      refine congrArg Except.ok (key e3 l3 ?_)
      intro x y k hx hy hk
      rw [p3 x y k hx hy hk, p2 x y k hx hy hk, p1 x y k hx hy hk]
      by_cases hxy : x = X ∧ y = Y
      · have c5 : ¬ ch < 3 := by omega
        by_cases k0 : k = 0
        · simp [hxy, paintByte, c1, c5, k0]
        by_cases k1 : k = 1
        · simp [hxy, paintByte, c1, c5, k1]
        by_cases k2 : k = 2
        · simp [hxy, paintByte, c1, c5, k2]
        simp [hxy, paintByte, c1, c4, c5, k0, k1, k2]
      · rw [if_neg (by tauto), if_neg (by tauto), if_neg (by tauto), if_neg hxy]
  · rw [if_neg c3]
    refine congrArg Except.ok (key e hel ?_)
    intro x y k hx hy hk
    have c5 : ch < 3 := by omega
    simp [paintByte, c1, c5]

/-- Very wide or high images: the comparison `(int32_t)width` is with a negative number. -/
theorem set_pixel_wide (hw : IsU32 w) (hh : IsU32 h)
    (hb : 2147483648 ≤ w ∨ 2147483648 ≤ h) (col : UInt8 × UInt8 × UInt8)
    (X Y : Int) : fcv_set_circle_pixel P w h ch X Y col d = .ok d := by
  unfold IsU32 at hw hh
  unfold fcv_set_circle_pixel
  split
  · rfl
  · rw [if_neg]
    · rfl
    · unfold i32OfU32
      rintro ⟨a, b, c, e⟩
      split_ifs at b e <;> omega

end

/-! ### The circle algorithm -/

/-- The states `(x, y, d)` the algorithm goes through for radius `r`. -/
inductive Bres (r : Int) : Int → Int → Int → Prop
  | init : Bres r 0 r (3 - 2 * r)
  | diag {x y d : Int} : Bres r x y d → x ≤ y → 0 < d →
      Bres r (x + 1) (y - 1) (d + 4 * (x + 1 - (y - 1)) + 10)
  | horiz {x y d : Int} : Bres r x y d → x ≤ y → d ≤ 0 →
      Bres r (x + 1) y (d + 4 * (x + 1) + 6)

namespace Bres
variable {r x y d : Int}

theorem x_nonneg (hb : Bres r x y d) : 0 ≤ x := by
  induction hb <;> omega

theorem basic (hr : 0 ≤ r) (hb : Bres r x y d) :
    0 ≤ x ∧ y ≤ r ∧ r - y ≤ x ∧ x - y ≤ 2 ∧ (x = 0 → y = r ∧ d = 3 - 2 * r) := by
  induction hb <;> omega

theorem formula (hb : Bres r x y d) :
    d = 2 * (x * x + y * y - r * r) + 8 * x - 6 * y + 4 * r + 3 := by
  induction hb with
  | init => ring
  | diag h _ _ ih => rw [ih]; ring
  | horiz h _ _ ih => rw [ih]; ring

theorem upper (hr : 0 ≤ r) (hb : Bres r x y d) :
    (x - y ≤ -2 ∧ d ≤ 4 * x + 6) ∨ (x - y = -1 ∧ d ≤ 4 * x + 8) ∨ (x - y = 0 ∧ d ≤ 4 * x + 12) ∨
    (x - y = 1 ∧ d ≤ 4 * x + 18) ∨ (x - y = 2 ∧ d ≤ 4 * x + 26) := by
  induction hb with
  | init => omega
  | diag h _ _ ih => have := h.basic hr; omega
  | horiz h _ _ ih => have := h.basic hr; omega

theorem lower (hr : 0 ≤ r) (hb : Bres r x y d) : (y = r ∧ 3 - 2 * r ≤ d) ∨ 4 * (x - y) + 11 ≤ d := by
  induction hb with
  | init => omega
  | diag h _ _ ih => have := h.basic hr; omega
  | horiz h _ _ ih => have := h.basic hr; omega

theorem not_corner (hr : 1 ≤ r) (hb : Bres r x y d) : ¬ (x = r ∧ y = r) := by
  rintro ⟨hx, hy⟩
  cases hb with
  | init => omega
  | diag h h1 h2 => have := h.basic (by omega); omega
  | @horiz x _ d h h1 h2 =>
    have f := h.formula
    have hx : x = r - 1 := by omega
    subst hx; subst hy
    nlinarith

/-- Except for radius 0 the algorithm never leaves the square of the radius. -/
theorem x_le (hr : 1 ≤ r) (hb : Bres r x y d) : x ≤ r := by
  cases hb with
  | init => omega
  | diag h h1 h2 => have := h.basic (by omega); have := h.not_corner hr; omega
  | horiz h h1 h2 => have := h.basic (by omega); have := h.not_corner hr; omega

theorem y_ge (hr : 1 ≤ r) (hb : Bres r x y d) : 0 ≤ y := by
  have := hb.basic (by omega)
  cases hb with
  | init => omega
  | diag h h1 h2 =>
    have b := h.basic (by omega)
    omega
  | horiz h h1 h2 =>
    have b := h.basic (by omega)
    omega

theorem bounds (hr : 0 ≤ r) (hb : Bres r x y d) :
    0 ≤ x ∧ x ≤ max r 1 ∧ -1 ≤ y ∧ y ≤ r ∧ (1 ≤ r → 0 ≤ y ∧ x ≤ r) := by
  have b := hb.basic hr
  by_cases h1 : 1 ≤ r
  · have := hb.x_le h1
    have := hb.y_ge h1
    omega
  · have : r = 0 := by omega
    subst this
    cases hb with
    | init => omega
    | diag h h1 h2 => have b' := h.basic (by omega); omega
    | horiz h h1 h2 => have b' := h.basic (by omega); omega

theorem unique {y' d' : Int} (hb : Bres r x y d) (hb' : Bres r x y' d') : y = y' ∧ d = d' := by
  induction hb generalizing y' d' with
  | init =>
    generalize hx : (0 : Int) = x at hb'
    cases hb' with
    | init => exact ⟨rfl, rfl⟩
    | diag h _ _ => have := h.x_nonneg; omega
    | horiz h _ _ => have := h.x_nonneg; omega
  | @diag x y d h h1 h2 ih =>
    generalize hx : x + 1 = x' at hb'
    cases hb' with
    | init => have := h.x_nonneg; omega
    | @diag x2 y2 d2 h' _ _ =>
      have : x = x2 := by omega
      subst this
      obtain ⟨rfl, rfl⟩ := ih h'
      exact ⟨rfl, rfl⟩
    | @horiz x2 y2 d2 h' _ _ =>
      have : x = x2 := by omega
      subst this
      obtain ⟨rfl, rfl⟩ := ih h'
      omega
  | @horiz x y d h h1 h2 ih =>
    generalize hx : x + 1 = x' at hb'
    cases hb' with
    | init => have := h.x_nonneg; omega
    | @diag x2 y2 d2 h' _ _ =>
      have : x = x2 := by omega
      subst this
      obtain ⟨rfl, rfl⟩ := ih h'
      omega
    | @horiz x2 y2 d2 h' _ _ =>
      have : x = x2 := by omega
      subst this
      obtain ⟨rfl, rfl⟩ := ih h'
      exact ⟨rfl, rfl⟩

/-- Every earlier column was visited. -/
theorem before (hb : Bres r x y d) {k : Int} (h0 : 0 ≤ k) (hk : k < x) :
    ∃ y' d', Bres r k y' d' ∧ k ≤ y' := by
  induction hb with
  | init => omega
  | @diag x y d h h1 h2 ih =>
    by_cases e : k = x
    · subst e; exact ⟨y, d, h, h1⟩
    · exact ih (by omega)
  | @horiz x y d h h1 h2 ih =>
    by_cases e : k = x
    · subst e; exact ⟨y, d, h, h1⟩
    · exact ih (by omega)

theorem y_anti {x' y' d' : Int} (hb : Bres r x y d) (hb' : Bres r x' y' d') (h : x ≤ x') :
    y' ≤ y := by
  induction hb' with
  | init =>
    have := hb.x_nonneg
    have : x = 0 := by omega
    subst this
    have := hb.unique .init
    omega
  | @diag x2 y2 d2 h2 a b ih =>
    by_cases e : x = x2 + 1
    · subst e
      have := hb.unique (h2.diag a b)
      omega
    · have := ih (by omega); omega
  | @horiz x2 y2 d2 h2 a b ih =>
    by_cases e : x = x2 + 1
    · subst e
      have := hb.unique (h2.horiz a b)
      omega
    · exact ih (by omega)

end Bres

/-- The offsets coloured by one circle stamp. -/
def CircleStamp (x y dx dy : Int) : Prop :=
  ((dx = x ∨ dx = -x) ∧ (dy = y ∨ dy = -y)) ∨ ((dx = y ∨ dx = -y) ∧ (dy = x ∨ dy = -x))

/-- The offsets coloured by one disk stamp. -/
def DiskStamp (x y dx dy : Int) : Prop :=
  (-x ≤ dx ∧ dx ≤ x ∧ (dy = y ∨ dy = -y)) ∨ (x ≠ y ∧ -y ≤ dx ∧ dx ≤ y ∧ (dy = x ∨ dy = -x))

section
variable {P : Plat} {w h ch : Nat} {col : UInt8 × UInt8 × UInt8}

/-- `R S` is the image with the pixels of `S` painted. -/
def IsPainter (P : Plat) (w h ch : Nat) (col : UInt8 × UInt8 × UInt8)
    (R : (Int → Int → Prop) → List UInt8) : Prop :=
  ∀ S X Y, fcv_set_circle_pixel P w h ch X Y col (R S) =
    .ok (R fun a b => S a b ∨ (a = X ∧ b = Y))

variable {R : (Int → Int → Prop) → List UInt8}

theorem set_congr {S T : Int → Int → Prop} (h : ∀ a b, S a b ↔ T a b) : R S = R T := by
  have : S = T := by funext a b; exact propext (h a b)
  rw [this]

theorem circle_points_ok (hR : IsPainter P w h ch col R) {cx cy x y : Int} (S : Int → Int → Prop)
    (hx : IsI32 (cx + x)) (hx' : IsI32 (cx - x)) (hy : IsI32 (cx + y)) (hy' : IsI32 (cx - y))
    (kx : IsI32 (cy + x)) (kx' : IsI32 (cy - x)) (ky : IsI32 (cy + y)) (ky' : IsI32 (cy - y)) :
    fcv_draw_circle_points P w h ch cx cy col x y (R S)
      = .ok (R fun a b => S a b ∨ CircleStamp x y (a - cx) (b - cy)) := by
  unfold fcv_draw_circle_points
  rw [i32_ok hx, i32_ok hx', i32_ok hy, i32_ok hy', i32_ok kx, i32_ok kx', i32_ok ky, i32_ok ky']
  simp only [ok_bind, hR _ _ _]
  refine congrArg Except.ok (set_congr fun a b => ?_)
  unfold CircleStamp
  constructor
  · rintro ((((((((h | ⟨rfl, rfl⟩) | ⟨rfl, rfl⟩) | ⟨rfl, rfl⟩) | ⟨rfl, rfl⟩) | ⟨rfl, rfl⟩) |
      ⟨rfl, rfl⟩) | ⟨rfl, rfl⟩) | ⟨rfl, rfl⟩)
    · exact Or.inl h
    · exact Or.inr (Or.inl ⟨Or.inl (by ring), Or.inl (by ring)⟩)
    · exact Or.inr (Or.inl ⟨Or.inr (by ring), Or.inl (by ring)⟩)
    · exact Or.inr (Or.inl ⟨Or.inl (by ring), Or.inr (by ring)⟩)
    · exact Or.inr (Or.inl ⟨Or.inr (by ring), Or.inr (by ring)⟩)
    · exact Or.inr (Or.inr ⟨Or.inl (by ring), Or.inl (by ring)⟩)
    · exact Or.inr (Or.inr ⟨Or.inr (by ring), Or.inl (by ring)⟩)
    · exact Or.inr (Or.inr ⟨Or.inl (by ring), Or.inr (by ring)⟩)
    · exact Or.inr (Or.inr ⟨Or.inr (by ring), Or.inr (by ring)⟩)
  · have e : ∀ u v s : Int, u - v = s → u = v + s := fun u v s h => by omega
    have e' : ∀ u v s : Int, u - v = -s → u = v - s := fun u v s h => by omega
    rintro (h | ⟨h1 | h1, h2 | h2⟩ | ⟨h1 | h1, h2 | h2⟩)
    · exact Or.inl (Or.inl (Or.inl (Or.inl (Or.inl (Or.inl (Or.inl (Or.inl h)))))))
    · exact Or.inl (Or.inl (Or.inl (Or.inl (Or.inl (Or.inl (Or.inl
        (Or.inr ⟨e _ _ _ h1, e _ _ _ h2⟩)))))))
    · exact Or.inl (Or.inl (Or.inl (Or.inl (Or.inl (Or.inr ⟨e _ _ _ h1, e' _ _ _ h2⟩)))))
    · exact Or.inl (Or.inl (Or.inl (Or.inl (Or.inl (Or.inl (Or.inr ⟨e' _ _ _ h1, e _ _ _ h2⟩))))))
    · exact Or.inl (Or.inl (Or.inl (Or.inl (Or.inr ⟨e' _ _ _ h1, e' _ _ _ h2⟩))))
    · exact Or.inl (Or.inl (Or.inl (Or.inr ⟨e _ _ _ h1, e _ _ _ h2⟩)))
    · exact Or.inl (Or.inr ⟨e _ _ _ h1, e' _ _ _ h2⟩)
    · exact Or.inl (Or.inl (Or.inr ⟨e' _ _ _ h1, e _ _ _ h2⟩))
    · exact Or.inr ⟨e' _ _ _ h1, e' _ _ _ h2⟩

theorem fillLine_ok (hR : IsPainter P w h ch col R) {cx cy a v : Int} (S : Int → Int → Prop)
    (h1 : IsI32 (cx - a)) (h2 : IsI32 (cx + a)) (h3 : IsI32 (cx + a + 1)) (h4 : IsI32 (cy + v))
    (h5 : IsI32 (cy - v)) :
    fillLine P w h ch col cx cy a v (R S) = .ok (R fun X Y => S X Y ∨
      (-a ≤ X - cx ∧ X - cx ≤ a ∧ (Y - cy = v ∨ Y - cy = -v))) := by
  unfold fillLine
  rw [i32_ok h1, i32_ok h2]
  simp only [ok_bind]
  refine Ok.eq ((forN_ok (fun k s => s = R fun X Y => S X Y ∨
    (-a ≤ X - cx ∧ X - cx < -a + k ∧ (Y - cy = v ∨ Y - cy = -v))) ?_ ?_).mono ?_)
  · refine set_congr fun X Y => ⟨Or.inl, ?_⟩
    rintro (h | h)
    · exact h
    · omega
  · rintro k hk _ rfl
    rw [i32_ok h4, i32_ok h5, i32_ok (z := cx - a + k + 1) (by unfold IsI32 at *; omega)]
    simp only [ok_bind, hR _ _ _]
    refine Ok.pure' (set_congr fun X Y => ?_)
    by_cases hS : S X Y
    · simp only [hS, true_or]
    · simp only [hS, false_or]
      push_cast
      omega
  · rintro _ rfl
    refine set_congr fun X Y => ?_
    by_cases hS : S X Y
    · simp only [hS, true_or]
    · simp only [hS, false_or]
      omega

theorem fill_disk_lines_ok (hR : IsPainter P w h ch col R) {cx cy x y : Int}
    (S : Int → Int → Prop)
    (hx : IsI32 (cx + x + 1)) (hx' : IsI32 (cx - x)) (hy : IsI32 (cx + y + 1))
    (hy' : IsI32 (cx - y)) (gx : IsI32 (cx + x)) (gy : IsI32 (cx + y))
    (kx : IsI32 (cy + x)) (kx' : IsI32 (cy - x)) (ky : IsI32 (cy + y)) (ky' : IsI32 (cy - y)) :
    fcv_fill_disk_lines P w h ch cx cy col x y (R S)
      = .ok (R fun a b => S a b ∨ DiskStamp x y (a - cx) (b - cy)) := by
  unfold fcv_fill_disk_lines
  rw [fillLine_ok hR S hx' gx hx ky ky']
  simp only [ok_bind]
  by_cases e : x = y
  · rw [if_neg (by simp [e])]
    refine congrArg Except.ok (set_congr fun X Y => ?_)
    simp only [DiskStamp, e, ne_eq, not_true_eq_false, false_and, or_false]
  · rw [if_pos e, fillLine_ok hR _ hy' gy hy kx kx']
    refine congrArg Except.ok (set_congr fun X Y => ?_)
    simp only [DiskStamp, ne_eq, e, not_false_eq_true, true_and]
    exact or_assoc

theorem bresStep_diag {r x y d : Int} (hr : 0 ≤ r) (hr' : r ≤ 500000000) (hb : Bres r x y d)
    (hxy : x ≤ y) (hd : 0 < d) :
    bresStep x y d = .ok (x + 1, y - 1, d + 4 * (x + 1 - (y - 1)) + 10) := by
  have b := hb.basic hr
  have u := hb.upper hr
  have u' := (hb.diag hxy hd).upper hr
  unfold bresStep
  rw [i32_ok (z := x + 1) (by unfold IsI32; omega)]
  simp only [ok_bind]
  rw [if_pos hd, i32_ok (z := y - 1) (by unfold IsI32; omega)]
  simp only [ok_bind]
  rw [i32_ok (z := x + 1 - (y - 1)) (by unfold IsI32; omega)]
  simp only [ok_bind]
  rw [i32_ok (z := 4 * (x + 1 - (y - 1))) (by unfold IsI32; omega)]
  simp only [ok_bind]
  rw [i32_ok (z := d + 4 * (x + 1 - (y - 1))) (by unfold IsI32; omega)]
  simp only [ok_bind]
  rw [i32_ok (z := d + 4 * (x + 1 - (y - 1)) + 10) (by unfold IsI32; omega)]
  rfl

theorem bresStep_horiz {r x y d : Int} (hr : 0 ≤ r) (hr' : r ≤ 500000000) (hb : Bres r x y d)
    (hxy : x ≤ y) (hd : d ≤ 0) :
    bresStep x y d = .ok (x + 1, y, d + 4 * (x + 1) + 6) := by
  have b := hb.basic hr
  have l := hb.lower hr
  unfold bresStep
  rw [i32_ok (z := x + 1) (by unfold IsI32; omega)]
  simp only [ok_bind]
  rw [if_neg (by omega), i32_ok (z := 4 * (x + 1)) (by unfold IsI32; omega)]
  simp only [ok_bind]
  rw [i32_ok (z := d + 4 * (x + 1)) (by unfold IsI32; omega)]
  simp only [ok_bind]
  rw [i32_ok (z := d + 4 * (x + 1) + 6) (by unfold IsI32; omega)]
  rfl

theorem bresenham_ok {r : Int} (hr : 0 ≤ r) (hr' : r ≤ 500000000)
    {stamp : Int → Int → List UInt8 → CM (List UInt8)} {T : Int → Int → Int → Int → Prop}
    (S : Int → Int → Prop)
    (hst : ∀ S x y d, Bres r x y d →
      stamp x y (R S) = .ok (R fun a b => S a b ∨ T x y a b)) :
    bresenham r stamp (R S)
      = .ok (R fun a b => S a b ∨ ∃ x y d, Bres r x y d ∧ T x y a b) := by
  unfold bresenham
  rw [i32_ok (z := 2 * r) (by unfold IsI32; omega)]
  simp only [ok_bind]
  rw [i32_ok (z := 3 - 2 * r) (by unfold IsI32; omega)]
  simp only [ok_bind]
  rw [hst _ _ _ _ .init]
  simp only [ok_bind]
  refine Ok.eq (Ok.bind (whileFuel_ok
    (fun s : Int × Int × Int × List UInt8 => Bres r s.1 s.2.1 s.2.2.1 ∧
      s.2.2.2 = R fun a b => S a b ∨ ∃ x y d, Bres r x y d ∧ x ≤ s.1 ∧ T x y a b)
    (fun s => (r + 1 - s.1).toNat)
    (fun s => s.2.2.2 = R fun a b => S a b ∨ ∃ x y d, Bres r x y d ∧ T x y a b)
    ⟨.init, ?_⟩ ?_ ?_) fun s hs => Ok.pure' hs)
  · refine set_congr fun a b => or_congr Iff.rfl ⟨fun h => ⟨0, r, _, .init, le_rfl, h⟩, ?_⟩
    rintro ⟨x, y, d, hb, hx, ht⟩
    have := hb.x_nonneg
    have : x = 0 := by omega
    subst this
    obtain ⟨rfl, rfl⟩ := hb.unique .init
    exact ht
  · simp only; omega
  · rintro ⟨x, y, d, data⟩ ⟨hb, hdata⟩
    simp only at hb hdata
    subst hdata
    have b := hb.basic hr
    simp only
    by_cases hxy : y ≥ x
    · rw [if_pos hxy]
      have fin : ∀ y' d', Bres r (x + 1) y' d' →
          (R fun a b => (S a b ∨ ∃ x' y d, Bres r x' y d ∧ x' ≤ x ∧ T x' y a b) ∨
            T (x + 1) y' a b) =
          R fun a b => S a b ∨ ∃ x' y d, Bres r x' y d ∧ x' ≤ x + 1 ∧ T x' y a b := by
        intro y' d' hb'
        refine set_congr fun a b => ⟨?_, ?_⟩
        · rintro ((h | ⟨x', y2, d2, h1, h2, h3⟩) | h)
          · exact Or.inl h
          · exact Or.inr ⟨x', y2, d2, h1, by omega, h3⟩
          · exact Or.inr ⟨_, _, _, hb', le_rfl, h⟩
        · rintro (h | ⟨x', y2, d2, h1, h2, h3⟩)
          · exact Or.inl (Or.inl h)
          · by_cases e : x' = x + 1
            · subst e
              obtain ⟨rfl, rfl⟩ := hb'.unique h1
              exact Or.inr h3
            · exact Or.inl (Or.inr ⟨x', y2, d2, h1, by omega, h3⟩)
      by_cases hd : 0 < d
      · have hb' := hb.diag hxy hd
        rw [bresStep_diag hr hr' hb hxy hd]
        simp only [ok_bind]
        rw [hst _ _ _ _ hb']
        refine Ok.pure' ?_
        simp only [Bool.false_eq_true, if_false]
        exact ⟨⟨hb', fin _ _ hb'⟩, by omega⟩
      · have hd' : d ≤ 0 := by omega
        have hb' := hb.horiz hxy hd'
        rw [bresStep_horiz hr hr' hb hxy hd']
        simp only [ok_bind]
        rw [hst _ _ _ _ hb']
        refine Ok.pure' ?_
        simp only [Bool.false_eq_true, if_false]
        exact ⟨⟨hb', fin _ _ hb'⟩, by omega⟩
    · rw [if_neg hxy]
      refine Ok.pure' ?_
      simp only [if_true]
      refine set_congr fun a b => or_congr Iff.rfl ⟨?_, ?_⟩
      · rintro ⟨x', y', d', h1, _, h2⟩; exact ⟨x', y', d', h1, h2⟩
      · rintro ⟨x', y', d', h1, h2⟩
        refine ⟨x', y', d', h1, ?_, h2⟩
        by_contra hc
        obtain ⟨y2, d2, h3, h4⟩ := h1.before (k := x) (by omega) (by omega)
        obtain ⟨rfl, rfl⟩ := hb.unique h3
        exact hxy h4

/-- The offsets drawn for a circle and a disk of integer radius `r`. -/
def CircleOff (r dx dy : Int) : Prop := ∃ x y d, Bres r x y d ∧ CircleStamp x y dx dy
def DiskOff (r dx dy : Int) : Prop := ∃ x y d, Bres r x y d ∧ DiskStamp x y dx dy

theorem circle_bres_ok (hR : IsPainter P w h ch col R) {r cx cy : Int} (hr : 0 ≤ r)
    (hr' : r ≤ 500000000) (hcx : |cx| ≤ 1000000000) (hcy : |cy| ≤ 1000000000)
    (S : Int → Int → Prop) :
    bresenham r (fun x y data => fcv_draw_circle_points P w h ch cx cy col x y data) (R S)
      = .ok (R fun a b => S a b ∨ CircleOff r (a - cx) (b - cy)) := by
  rw [abs_le] at hcx hcy
  rw [bresenham_ok hr hr' (T := fun x y a b => CircleStamp x y (a - cx) (b - cy)) S]
  · rfl
  · intro S x y d hb
    have b := hb.bounds hr
    exact circle_points_ok hR S (by unfold IsI32; omega) (by unfold IsI32; omega)
      (by unfold IsI32; omega) (by unfold IsI32; omega) (by unfold IsI32; omega)
      (by unfold IsI32; omega) (by unfold IsI32; omega) (by unfold IsI32; omega)

theorem disk_bres_ok (hR : IsPainter P w h ch col R) {r cx cy : Int} (hr : 0 ≤ r)
    (hr' : r ≤ 500000000) (hcx : |cx| ≤ 1000000000) (hcy : |cy| ≤ 1000000000)
    (S : Int → Int → Prop) :
    bresenham r (fun x y data => fcv_fill_disk_lines P w h ch cx cy col x y data) (R S)
      = .ok (R fun a b => S a b ∨ DiskOff r (a - cx) (b - cy)) := by
  rw [abs_le] at hcx hcy
  rw [bresenham_ok hr hr' (T := fun x y a b => DiskStamp x y (a - cx) (b - cy)) S]
  · rfl
  · intro S x y d hb
    have b := hb.bounds hr
    exact fill_disk_lines_ok hR S (by unfold IsI32; omega) (by unfold IsI32; omega)
      (by unfold IsI32; omega) (by unfold IsI32; omega) (by unfold IsI32; omega)
      (by unfold IsI32; omega) (by unfold IsI32; omega) (by unfold IsI32; omega)
      (by unfold IsI32; omega) (by unfold IsI32; omega)

end

/-! ### Geometry of the drawn offsets -/

theorem Bres.ring {r x y d : Int} (hr : 1 ≤ r) (hb : Bres r x y d) :
    x * x + y * y ≤ r * r + r + 1 := by
  have f := hb.formula
  have u := hb.upper (by omega)
  have b := hb.bounds (by omega)
  by_cases h2 : 2 ≤ r
  · rcases u with ⟨h, u⟩ | ⟨h, u⟩ | ⟨h, u⟩ | ⟨h, u⟩ | ⟨h, u⟩ <;> omega
  · have : r = 1 := by omega
    subst this
    have b' := b.2.2.2.2 (by omega)
    have hn := hb.not_corner (by omega)
    have : (x = 0 ∨ x = 1) ∧ (y = 0 ∨ y = 1) := by omega
    obtain ⟨rfl | rfl, rfl | rfl⟩ := this <;> omega

theorem Bres.ring_lower {r x y d : Int} (hr : 2 ≤ r) (hb : Bres r x y d) :
    (r - 2) * (r - 2) ≤ x * x + y * y := by
  have f := hb.formula
  have l := hb.lower (by omega)
  have b := hb.bounds (by omega)
  have bb := hb.basic (by omega)
  have e : (r - 2) * (r - 2) = r * r - 4 * r + 4 := by ring
  rw [e]
  rcases l with ⟨rfl, l⟩ | l
  · have : 0 ≤ x * x := mul_self_nonneg x
    omega
  · omega

theorem sq_le_of_abs_le {a b : Int} (h1 : -b ≤ a) (h2 : a ≤ b) : a * a ≤ b * b := by nlinarith

theorem neg_or_sq {a b : Int} (h : a = b ∨ a = -b) : a * a = b * b := by
  rcases h with rfl | rfl <;> ring

theorem CircleOff.ring {r dx dy : Int} (hr : 1 ≤ r) (h : CircleOff r dx dy) :
    dx * dx + dy * dy ≤ r * r + r + 1 := by
  obtain ⟨x, y, d, hb, ⟨h1, h2⟩ | ⟨h1, h2⟩⟩ := h <;>
    rw [neg_or_sq h1, neg_or_sq h2] <;> have := hb.ring hr <;> omega

theorem CircleOff.ring_lower {r dx dy : Int} (hr : 2 ≤ r) (h : CircleOff r dx dy) :
    (r - 2) * (r - 2) ≤ dx * dx + dy * dy := by
  obtain ⟨x, y, d, hb, ⟨h1, h2⟩ | ⟨h1, h2⟩⟩ := h <;>
    rw [neg_or_sq h1, neg_or_sq h2] <;> have := hb.ring_lower hr <;> omega

theorem DiskOff.ring {r dx dy : Int} (hr : 1 ≤ r) (h : DiskOff r dx dy) :
    dx * dx + dy * dy ≤ r * r + r + 1 := by
  obtain ⟨x, y, d, hb, ⟨h0, h1, h2⟩ | ⟨_, h0, h1, h2⟩⟩ := h <;>
    rw [neg_or_sq h2] <;> have := hb.ring hr <;> have := sq_le_of_abs_le h0 h1 <;> omega

theorem CircleOff.box {r dx dy : Int} (hr : 0 ≤ r) (h : CircleOff r dx dy) :
    |dx| ≤ max r 1 ∧ |dy| ≤ max r 1 := by
  obtain ⟨x, y, d, hb, h⟩ := h
  have := hb.bounds hr
  rw [abs_le, abs_le]
  rcases h with ⟨h1, h2⟩ | ⟨h1, h2⟩ <;> omega

theorem DiskOff.box {r dx dy : Int} (hr : 0 ≤ r) (h : DiskOff r dx dy) :
    |dx| ≤ max r 1 ∧ |dy| ≤ max r 1 := by
  obtain ⟨x, y, d, hb, h⟩ := h
  have := hb.bounds hr
  rw [abs_le, abs_le]
  rcases h with ⟨h1, h2, h3⟩ | ⟨h0, h1, h2, h3⟩ <;> omega

theorem CircleOff.symm {r dx dy : Int} (h : CircleOff r dx dy) :
    CircleOff r (-dx) dy ∧ CircleOff r dx (-dy) ∧ CircleOff r dy dx := by
  obtain ⟨x, y, d, hb, h⟩ := h
  refine ⟨⟨x, y, d, hb, ?_⟩, ⟨x, y, d, hb, ?_⟩, ⟨x, y, d, hb, ?_⟩⟩ <;>
    unfold CircleStamp at * <;> omega

theorem DiskOff.symm {r dx dy : Int} (h : DiskOff r dx dy) :
    DiskOff r (-dx) dy ∧ DiskOff r dx (-dy) := by
  obtain ⟨x, y, d, hb, h⟩ := h
  refine ⟨⟨x, y, d, hb, ?_⟩, ⟨x, y, d, hb, ?_⟩⟩ <;>
    unfold DiskStamp at * <;> omega

theorem CircleOff.poles (r : Int) :
    CircleOff r 0 r ∧ CircleOff r 0 (-r) ∧ CircleOff r r 0 ∧ CircleOff r (-r) 0 := by
  refine ⟨⟨_, _, _, .init, ?_⟩, ⟨_, _, _, .init, ?_⟩, ⟨_, _, _, .init, ?_⟩, ⟨_, _, _, .init, ?_⟩⟩ <;>
    unfold CircleStamp <;> omega

/-- The horizontal and vertical diameters. -/
theorem DiskOff.row {r : Int} (dx : Int) (h1 : -r ≤ dx) (h2 : dx ≤ r) :
    DiskOff r dx 0 := by
  refine ⟨_, _, _, .init, ?_⟩
  unfold DiskStamp
  omega

/-- The algorithm ends with `y < x`. -/
theorem Bres.final {r : Int} (hr : 0 ≤ r) : ∃ x y d, Bres r x y d ∧ y < x := by
  have : ∀ n : Nat, (∃ x y d, Bres r x y d ∧ y < x) ∨ ∃ y d, Bres r n y d ∧ (n : Int) ≤ y := by
    intro n
    induction n with
    | zero => exact Or.inr ⟨r, _, .init, by simpa using hr⟩
    | succ n ih =>
      rcases ih with h | ⟨y, d, hb, hxy⟩
      · exact Or.inl h
      · push_cast
        by_cases hd : 0 < d
        · have hb' := hb.diag hxy hd
          by_cases hc : (n : Int) + 1 ≤ y - 1
          · exact Or.inr ⟨_, _, hb', hc⟩
          · exact Or.inl ⟨_, _, _, hb', by omega⟩
        · have hb' := hb.horiz hxy (by omega)
          by_cases hc : (n : Int) + 1 ≤ y
          · exact Or.inr ⟨_, _, hb', hc⟩
          · exact Or.inl ⟨_, _, _, hb', by omega⟩
  rcases this (r.toNat + 1) with h | ⟨y, d, hb, hxy⟩
  · exact h
  · have := hb.basic hr
    push_cast at this hxy
    omega

/-- The last state on a given row: the next step is diagonal. -/
theorem Bres.last_on {r x y d : Int} (hb : Bres r x y d) {v : Int} (h1 : y < v) (h2 : v ≤ r) :
    ∃ x' d', Bres r x' v d' ∧ 0 < d' ∧ x' + 1 ≤ x := by
  induction hb with
  | init => omega
  | @diag x y d h a b ih =>
    by_cases e : v = y
    · subst e; exact ⟨x, d, h, b, le_rfl⟩
    · obtain ⟨x', d', h1, h2, h3⟩ := ih (by omega)
      exact ⟨x', d', h1, h2, by omega⟩
  | @horiz x y d h a b ih =>
    obtain ⟨x', d', h1, h2, h3⟩ := ih (by omega)
    exact ⟨x', d', h1, h2, by omega⟩

theorem DiskOff.covers {r dx dy : Int} (hr : 2 ≤ r) (h : dx * dx + dy * dy ≤ (r - 2) * (r - 2)) :
    DiskOff r dx dy := by
  -- it is enough to treat the first quadrant
  suffices H : ∀ a b : Int, 0 ≤ a → 0 ≤ b → a * a + b * b ≤ (r - 2) * (r - 2) → DiskOff r a b by
    rcases le_total 0 dx with h1 | h1 <;> rcases le_total 0 dy with h2 | h2
    · exact H _ _ h1 h2 h
    · have := (H dx (-dy) h1 (by omega) (by linarith)).symm.2
      rwa [neg_neg] at this
    · have := (H (-dx) dy (by omega) h2 (by linarith)).symm.1
      rwa [neg_neg] at this
    · have := (H (-dx) (-dy) (by omega) (by omega) (by linarith)).symm.1.symm.2
      rwa [neg_neg, neg_neg] at this
  intro a b ha hb0 hab
  obtain ⟨xf, yf, df, hf, hlt⟩ := Bres.final (r := r) (by omega)
  have hbr : b ≤ r - 2 := by nlinarith
  by_cases hc : b ≤ xf
  · have : ∃ y d, Bres r b y d := by
      by_cases e : b = xf
      · subst e; exact ⟨_, _, hf⟩
      · obtain ⟨y, d, hb, _⟩ := hf.before hb0 (by omega)
        exact ⟨y, d, hb⟩
    obtain ⟨y, d, hb⟩ := this
    have l := hb.ring_lower hr
    have bd := hb.bounds (by omega)
    have hy : 0 ≤ y := (bd.2.2.2.2 (by omega)).1
    have hay : a ≤ y := by
      by_contra hcon
      have : y * y < a * a := by nlinarith
      omega
    refine ⟨b, y, d, hb, ?_⟩
    unfold DiskStamp
    omega
  · obtain ⟨x, d, hb, hd, hx⟩ := hf.last_on (v := b) (by omega) (by omega)
    have f := hb.formula
    have bd := hb.basic (by omega)
    have e : (r - 2) * (r - 2) = r * r - 4 * r + 4 := by ring
    rw [e] at hab
    have hax : a ≤ x := by
      by_contra hcon
      have : x * x + 2 * x + 1 ≤ a * a := by nlinarith
      omega
    refine ⟨x, b, d, hb, ?_⟩
    unfold DiskStamp
    omega

/-! ### Very large radii -/

/-- Until the first diagonal step `x` stays below `2^15 + 1`. -/
theorem Bres.first_x {r x d : Int} (hr : 0 ≤ r) (hr' : r ≤ 1073741823) (hb : Bres r x r d) :
    x ≤ 40000 := by
  by_contra hc
  cases hb with
  | init => omega
  | @diag x' y' d' h a b => have := h.basic hr; omega
  | @horiz x' y' d' h a b =>
    have f := h.formula
    nlinarith

theorem bresenham_large {r : Int} (h1 : 536912000 ≤ r) (h2 : r ≤ 1073741823)
    (stamp : Int → Int → List UInt8 → CM (List UInt8)) (data out : List UInt8) :
    bresenham r stamp data ≠ .ok out := by
  unfold bresenham
  rw [i32_ok (z := 2 * r) (by unfold IsI32; omega)]
  simp only [ok_bind]
  rw [i32_ok (z := 3 - 2 * r) (by unfold IsI32; omega)]
  simp only [ok_bind]
  cases stamp 0 r data with
  | error e => intro h; cases h
  | ok data' =>
    simp only [ok_bind]
    have key : ∀ t : Int × Int × Int × List UInt8, whileFuel (r.toNat + 2)
        ((0 : Int), r, 3 - 2 * r, data') (fun (x, y, d, data) =>
          if y ≥ x then do
            let (x, y, d) ← bresStep x y d
            let data ← stamp x y data
            pure ((x, y, d, data), false)
          else pure ((x, y, d, data), true)) ≠ .ok t := by
      intro t
      refine whileFuel_ne_ok
        (fun s => s.2.1 = r ∧ Bres r s.1 r s.2.2.1) ⟨rfl, .init⟩ ?_ t
      rintro ⟨x, y, d, data⟩ ⟨hyr, hb⟩
      simp only at hyr hb ⊢
      subst hyr
      have hx := hb.first_x (by omega) h2
      have b := hb.basic (by omega)
      rw [if_pos (by omega)]
      by_cases hd : 0 < d
      · have : bresStep x y d = .error .signedOverflow := by
          unfold bresStep
          rw [i32_ok (z := x + 1) (by unfold IsI32; omega)]
          simp only [ok_bind]
          rw [if_pos hd, i32_ok (z := y - 1) (by unfold IsI32; omega)]
          simp only [ok_bind]
          rw [i32_ok (z := x + 1 - (y - 1)) (by unfold IsI32; omega)]
          simp only [ok_bind]
          rw [i32_err (by unfold IsI32; omega)]
          rfl
        rw [this]
        exact Part.error
      · refine Part.bind (P := fun q => q.2.1 = y ∧ Bres y q.1 y q.2.2) ?_ ?_
        · unfold bresStep
          rw [i32_ok (z := x + 1) (by unfold IsI32; omega)]
          simp only [ok_bind]
          rw [if_neg hd, i32_ok (z := 4 * (x + 1)) (by unfold IsI32; omega)]
          simp only [ok_bind]
          have l : 3 - 2 * y ≤ d := by
            have f := hb.formula
            nlinarith [mul_self_nonneg x]
          rw [i32_ok (z := d + 4 * (x + 1)) (by unfold IsI32; omega)]
          simp only [ok_bind]
          rw [i32_ok (z := d + 4 * (x + 1) + 6) (by unfold IsI32; omega)]
          exact Part.pure ⟨rfl, hb.horiz (by omega) (by omega)⟩
        · rintro ⟨x', y', d'⟩ ⟨rfl, hb'⟩
          exact Part.bind (Part.trivial _) fun s _ => Part.pure' ⟨rfl, rfl, hb'⟩
    intro h
    revert h
    cases hw : whileFuel (r.toNat + 2)
        ((0 : Int), r, 3 - 2 * r, data') (fun (x, y, d, data) =>
          if y ≥ x then do
            let (x, y, d) ← bresStep x y d
            let data ← stamp x y data
            pure ((x, y, d, data), false)
          else pure ((x, y, d, data), true)) with
    | error e => intro h; cases h
    | ok t => exact absurd hw (key t)

/-! ### The frame of `fcv_draw_circle` and `fcv_draw_disk` -/

theorem trunc_abs_le {q : ℚ} {n : ℤ} (h : |q| ≤ n) : |trunc q| ≤ n := by
  rw [abs_le] at h ⊢
  unfold trunc
  split_ifs with h0
  · refine ⟨?_, ?_⟩
    · rw [Int.le_floor]; push_cast; exact h.1
    · have := Int.floor_le q
      have h2 : ((⌊q⌋ : ℤ) : ℚ) ≤ n := this.trans h.2
      exact_mod_cast h2
  · refine ⟨?_, ?_⟩
    · have := Int.le_ceil q
      have h2 : ((-n : ℤ) : ℚ) ≤ ⌈q⌉ := by push_cast; exact h.1.trans this
      exact_mod_cast h2
    · rw [Int.ceil_le]; exact h.2

theorem castI32_ok {q : ℚ} (h : |q| ≤ 2147483647) : castI32 q = .ok (trunc q) := by
  have := trunc_abs_le (n := 2147483647) (by exact_mod_cast h)
  rw [abs_le] at this
  exact castInt_ok (by omega) this.2

theorem drawShape_eq {w h ch : Nat} (hw : 0 < w) (hh : 0 < h) (hch : 0 < ch) {hex : List Char}
    {ρ cx cy : ℚ} (h0 : 0 ≤ ρ) (h1 : ρ ≤ 1073741823) (hcx : |cx| ≤ 2147483647)
    (hcy : |cy| ≤ 2147483647)
    (stamp : Int → Int → UInt8 × UInt8 × UInt8 → Int → Int → List UInt8 → CM (List UInt8))
    (d : List UInt8) :
    drawShape w h ch (some hex) (.fin ρ) (.fin cx) (.fin cy) stamp d
      = bresenham (trunc ρ) (stamp (trunc cx) (trunc cy) (fcv_parse_hex_color hex)) d := by
  unfold drawShape
  simp only
  rw [if_neg (by omega), if_neg (by linarith), if_neg (by linarith),
    castI32_ok (q := ρ) (by rw [abs_of_nonneg h0]; linarith), castI32_ok hcx, castI32_ok hcy]
  rfl

theorem trunc_nn {q : ℚ} (h : 0 ≤ q) : 0 ≤ trunc q := by
  rw [trunc_nonneg h]; exact Int.floor_nonneg.2 h

theorem painter_of {P : Plat} {w h ch : Nat} {d : List UInt8} (hw : w < 2147483648)
    (hh : h < 2147483648) (hd : d.length = w * h * ch) (hs : d.length ≤ P.szMax)
    (col : UInt8 × UInt8 × UInt8) :
    IsPainter P w h ch col (fun S => painted w h ch col.1 col.2.1 col.2.2
      (lumaOf col.1 col.2.1 col.2.2) S d) :=
  fun S X Y => set_pixel_ok hw hh hd hs col S X Y

theorem painter_wide {P : Plat} {w h ch : Nat} {d : List UInt8} (hw : IsU32 w) (hh : IsU32 h)
    (hb : 2147483648 ≤ w ∨ 2147483648 ≤ h) (col : UInt8 × UInt8 × UInt8) :
    IsPainter P w h ch col (fun _ => d) :=
  fun _ X Y => set_pixel_wide hw hh hb col X Y

end FlatCV
