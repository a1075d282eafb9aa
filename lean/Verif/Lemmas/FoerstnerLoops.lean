/-
Corner response: the loops.
-/
import Verif.Lemmas.FoerstnerNum
import Verif.Lemmas.Mem
import Verif.Lemmas.BlurPass
import Verif.Spec.Foerstner
import Mathlib.Algebra.BigOperators.Ring.Finset
import Mathlib.Algebra.Order.BigOperators.Group.Finset

namespace FlatCV
open Model Spec Finset

/-- The block of `n` doubles `f 0 … f (n-1)`. -/
def arr (n : Nat) (f : Nat → ℚ) : List ℚ := (List.range n).map f

theorem arr_length (n : Nat) (f : Nat → ℚ) : (arr n f).length = n := by simp [arr]

theorem arr_get {n i : Nat} (f : Nat → ℚ) (hi : i < n) : (arr n f)[i]? = some (f i) := by simp [arr, hi]

theorem rd_arr {n i : Nat} (f : Nat → ℚ) (hi : i < n) : rd ((arr n f).map some) i = .ok (f i) := by
  unfold rd
  rw [List.getElem?_map, arr_get f hi]
  rfl

theorem replicate_zero_filled {n : Nat} (f : Nat → ℚ) :
    Filled (arr n f) (fun k => f k = 0) (List.replicate n (some 0)) := by
  refine ⟨by simp [arr_length], ?_⟩
  intro k hk h0
  rw [arr_length] at hk
  rw [arr_get f hk, h0]
  simp [hk]

/-- Two nested loops that handle the pixels of a rectangle. -/
theorem scan_rect {σ : Type} {w a b c e : Nat} {s : σ} {body : Nat → Nat → σ → CM σ}
    (Inv : (Nat → Prop) → σ → Prop) (W : Nat → Prop)
    (mono : ∀ V V' s, (∀ k, V' k → V k) → Inv V s → Inv V' s) (h0 : Inv W s)
    (hstep : ∀ y x V s, a ≤ y → y < b → c ≤ x → x < e → Inv V s →
      Ok (body y x s) (Inv fun k => V k ∨ k = y * w + x)) :
    Ok (forFrom a b s fun y s => forFrom c e s fun x s => body y x s)
      (Inv fun k => W k ∨ ∃ y x, a ≤ y ∧ y < b ∧ c ≤ x ∧ x < e ∧ k = y * w + x) := by
  unfold forFrom
  refine (forN_ok (fun j (s : σ) => Inv (fun k => W k ∨ ∃ y x, a ≤ y ∧ y < a + j ∧ c ≤ x ∧ x < e ∧ k = y * w + x) s)
    ?_ ?_).mono ?_
  · refine mono _ _ _ ?_ h0
    rintro k (h | ⟨y, x, h1, h2, -⟩)
    · exact h
    · omega
  · intro j hj s hs
    refine (forN_ok (fun i (s : σ) => Inv (fun k => (W k ∨ ∃ y x, a ≤ y ∧ y < a + j ∧ c ≤ x ∧ x < e ∧ k = y * w + x) ∨
      ∃ x, c ≤ x ∧ x < c + i ∧ k = (a + j) * w + x) s) ?_ ?_).mono ?_
    · refine mono _ _ _ ?_ hs
      rintro k (h | ⟨x, h1, h2, -⟩)
      · exact h
      · omega
    · intro i hi s hs
      refine (hstep (a + j) (c + i) _ s (by omega) (by omega) (by omega) (by omega) hs).mono ?_
      intro s hs
      refine mono _ _ _ ?_ hs
      rintro k (h | ⟨x, h1, h2, rfl⟩)
      · exact Or.inl (Or.inl h)
      · by_cases hx : x = c + i
        · subst hx; exact Or.inr rfl
        · exact Or.inl (Or.inr ⟨x, h1, by omega, rfl⟩)
    · intro s hs
      refine mono _ _ _ ?_ hs
      rintro k (h | ⟨y, x, h1, h2, h3, h4, rfl⟩)
      · exact Or.inl (Or.inl h)
      · by_cases hy : y = a + j
        · subst hy; exact Or.inr ⟨x, h3, by omega, rfl⟩
        · exact Or.inl (Or.inr ⟨y, x, h1, by omega, h3, h4, rfl⟩)
  · intro s hs
    refine mono _ _ _ ?_ hs
    rintro k (h | ⟨y, x, h1, h2, h3, h4, rfl⟩)
    · exact Or.inl h
    · exact Or.inr ⟨y, x, h1, by omega, h3, h4, rfl⟩

theorem rowCol32_eq {w y x n : Nat} (h : y * w + x < n) (hn : n ≤ 4294967296) : rowCol32 w y x = y * w + x := by
  unfold rowCol32
  have e : u32 (y * w) = y * w := u32_eq (by omega)
  rw [e, u32_eq (by omega)]

/-! ### Gradients -/

theorem accum_ok {d : List UInt8} {G c : ℤ} {i : Nat} {p : UInt8} (hp : rdIn d i = .ok p) (hG : |G| ≤ 100000)
    (hc : |c| ≤ 2) : accum d (G : ℚ) (c : ℚ) i = .ok ((G + c * (p.toNat : ℤ) : ℤ) : ℚ) := by
  have hpn := p.toNat_lt
  have h1 : |c * (p.toNat : ℤ)| ≤ 510 := by
    rw [abs_mul, Nat.abs_cast]
    calc |c| * (p.toNat : ℤ) ≤ 2 * 255 := mul_le_mul hc (by omega) (by omega) (by omega)
      _ = 510 := by norm_num
  have h2 : |G + c * (p.toNat : ℤ)| ≤ 9007199254740992 := (abs_add_le _ _).trans (by omega)
  have e1 : (c : ℚ) * (p.toNat : ℚ) = ((c * (p.toNat : ℤ) : ℤ) : ℚ) := by push_cast; rfl
  have q1 : |((c * (p.toNat : ℤ) : ℤ) : ℚ)| ≤ 10 ^ 60 := by
    rw [← Int.cast_abs]
    have : ((|c * (p.toNat : ℤ)| : ℤ) : ℚ) ≤ 510 := by exact_mod_cast h1
    exact this.trans (by norm_num)
  have q2 : |((G + c * (p.toNat : ℤ) : ℤ) : ℚ)| ≤ 10 ^ 60 := by
    rw [← Int.cast_abs]
    have : ((|G + c * (p.toNat : ℤ)| : ℤ) : ℚ) ≤ 9007199254740992 := by exact_mod_cast h2
    exact this.trans (by norm_num)
  unfold accum
  rw [hp, ok_bind, e1, f64_ok q1, ok_bind, rnd64_int (by omega), ← Int.cast_add, f64_ok q2, rnd64_int h2]

/-- Exact division by a power of two. -/
theorem rnd64_div_pow {z : ℤ} (k : ℕ) (hk : k ≤ 1074) (hz : |z| ≤ 9007199254740992) :
    Fmt.b64.rnd ((z : ℚ) / 2 ^ k) = z / 2 ^ k := by
  have := rnd_exact Fmt.b64 (m := z) (e := -(k : ℤ)) (by
    have : Fmt.b64.emin = -1074 := rfl
    omega) (hz.trans (by norm_num [Fmt.b64]))
  rw [zpow_neg, zpow_natCast, ← div_eq_mul_inv] at this
  exact this

theorem int_le_60 {z : ℤ} (hz : |z| ≤ 9007199254740992) (k : ℕ) : |(z : ℚ) / 2 ^ k| ≤ 10 ^ 60 := by
  rw [abs_div, abs_of_pos (by positivity : (0 : ℚ) < 2 ^ k), ← Int.cast_abs]
  refine (div_le_self (by positivity) (one_le_pow₀ (by norm_num))).trans ?_
  have : ((|z| : ℤ) : ℚ) ≤ 9007199254740992 := by exact_mod_cast hz
  exact this.trans (by norm_num)

section
variable {w h : Nat} {d : List UInt8}

theorem slopeX_abs (w h : Nat) (d : List UInt8) (x y : Nat) : |slopeX w h d x y| ≤ 1020 := by
  unfold slopeX
  simp only []
  have hb : ∀ x y, (px w 1 d x y 0).toNat < 256 := fun x y => (px w 1 d x y 0).toNat_lt
  split_ifs
  · have := hb (x + 1) (y - 1); have := hb (x + 1) y; have := hb (x + 1) (y + 1)
    have := hb (x - 1) (y - 1); have := hb (x - 1) y; have := hb (x - 1) (y + 1)
    rw [abs_le]
    constructor <;> omega
  · simp

theorem slopeY_abs (w h : Nat) (d : List UInt8) (x y : Nat) : |slopeY w h d x y| ≤ 1020 := by
  unfold slopeY
  simp only []
  have hb : ∀ x y, (px w 1 d x y 0).toNat < 256 := fun x y => (px w 1 d x y 0).toNat_lt
  split_ifs
  · have := hb (x - 1) (y + 1); have := hb x (y + 1); have := hb (x + 1) (y + 1)
    have := hb (x - 1) (y - 1); have := hb x (y - 1); have := hb (x + 1) (y - 1)
    rw [abs_le]
    constructor <;> omega
  · simp

theorem slopeX_inner (d : List UInt8) {x y : Nat} (hi : Inner w h 1 x y) : slopeX w h d x y =
    (((px w 1 d (x + 1) (y - 1) 0).toNat : ℤ) + 2 * (px w 1 d (x + 1) y 0).toNat + (px w 1 d (x + 1) (y + 1) 0).toNat) -
      ((px w 1 d (x - 1) (y - 1) 0).toNat + 2 * (px w 1 d (x - 1) y 0).toNat + (px w 1 d (x - 1) (y + 1) 0).toNat) := by
  unfold slopeX
  simp only []
  rw [if_pos hi]

theorem slopeY_inner (d : List UInt8) {x y : Nat} (hi : Inner w h 1 x y) : slopeY w h d x y =
    (((px w 1 d (x - 1) (y + 1) 0).toNat : ℤ) + 2 * (px w 1 d x (y + 1) 0).toNat + (px w 1 d (x + 1) (y + 1) 0).toNat) -
      ((px w 1 d (x - 1) (y - 1) 0).toNat + 2 * (px w 1 d x (y - 1) 0).toNat + (px w 1 d (x + 1) (y - 1) 0).toNat) := by
  unfold slopeY
  simp only []
  rw [if_pos hi]

theorem foerGrad_ok (hd : d.length = w * h * 1) (hn : w * h < 4294967296) {x y : Nat} (hi : Inner w h 1 x y) :
    foerGrad w d y x = .ok ((slopeX w h d x y : ℚ) / 2 ^ 3, (slopeY w h d x y : ℚ) / 2 ^ 3) := by
  obtain ⟨h1, h2, h3, h4⟩ := hi
  have hw0 : w ≤ w * h := Nat.le_mul_of_pos_right _ (by omega)
  have hh0 : h ≤ w * h := Nat.le_mul_of_pos_left _ (by omega)
  have e1 : u32sub y 1 = y - 1 := u32sub_eq (by omega) (by omega)
  have e2 : u32 (y + 1) = y + 1 := u32_eq (by omega)
  have e3 : u32sub x 1 = x - 1 := u32sub_eq (by omega) (by omega)
  have e4 : u32 (x + 1) = x + 1 := u32_eq (by omega)
  have get : ∀ r c, c < w → r < h → rdIn d (rowCol32 w r c) = .ok (px w 1 d c r 0) := by
    intro r c hc hr
    have hlt := idx_lt hc hr
    rw [rowCol32_eq (n := w * h) hlt (by omega)]
    have := getElem?_px hd hc hr (c := 0) (by omega)
    rw [Nat.mul_one, Nat.add_zero] at this
    unfold rdIn
    rw [this]
  have acc : ∀ (G c : ℤ) (r k : Nat), k < w → r < h → |G| ≤ 100000 → |c| ≤ 2 →
      accum d (G : ℚ) (c : ℚ) (rowCol32 w r k) = .ok ((G + c * ((px w 1 d k r 0).toNat : ℤ) : ℤ) : ℚ) :=
    fun G c r k hk hr hG hc => accum_ok (get r k hk hr) hG hc
  have hb : ∀ c r, (px w 1 d c r 0).toNat < 256 := fun c r => (px w 1 d c r 0).toNat_lt
  have sx := slopeX_abs w h d x y
  have sy := slopeY_abs w h d x y
  have vx := slopeX_inner d ⟨h1, h2, h3, h4⟩
  have vy := slopeY_inner d ⟨h1, h2, h3, h4⟩
  unfold foerGrad
  simp only [e1, e2, e3, e4]
  have c1 : ((-1 : ℚ)) = ((-1 : ℤ) : ℚ) := by norm_num
  have c2 : ((1 : ℚ)) = ((1 : ℤ) : ℚ) := by norm_num
  have c3 : ((-2 : ℚ)) = ((-2 : ℤ) : ℚ) := by norm_num
  have c4 : ((2 : ℚ)) = ((2 : ℤ) : ℚ) := by norm_num
  have c5 : ((0 : ℚ)) = ((0 : ℤ) : ℚ) := by norm_num
  have := hb (x - 1) (y - 1); have := hb (x + 1) (y - 1); have := hb (x - 1) y; have := hb (x + 1) y
  have := hb (x - 1) (y + 1); have := hb (x + 1) (y + 1); have := hb x (y - 1); have := hb x (y + 1)
  have bd : ∀ {z : ℤ}, -100000 ≤ z → z ≤ 100000 → |z| ≤ 100000 := fun a b => abs_le.2 ⟨a, b⟩
  have g1 : |(-1 : ℤ)| ≤ 2 := by norm_num
  have g2 : |(1 : ℤ)| ≤ 2 := by norm_num
  have g3 : |(-2 : ℤ)| ≤ 2 := by norm_num
  have g4 : |(2 : ℤ)| ≤ 2 := by norm_num
  have acc1 : ∀ (G : ℤ) (r k : Nat), k < w → r < h → |G| ≤ 100000 →
      accum d (G : ℚ) 1 (rowCol32 w r k) = .ok ((G + 1 * ((px w 1 d k r 0).toNat : ℤ) : ℤ) : ℚ) := by
    intro G r k hk hr hG
    have := acc G 1 r k hk hr hG g2
    rwa [← c2] at this
  have acc2 : ∀ (G : ℤ) (r k : Nat), k < w → r < h → |G| ≤ 100000 →
      accum d (G : ℚ) 2 (rowCol32 w r k) = .ok ((G + 2 * ((px w 1 d k r 0).toNat : ℤ) : ℤ) : ℚ) := by
    intro G r k hk hr hG
    have := acc G 2 r k hk hr hG g4
    rwa [← c4] at this
  rw [c5, c1, c3, acc 0 (-1) (y - 1) (x - 1) (by omega) (by omega) (by norm_num) g1, ok_bind,
    acc1 _ (y - 1) (x + 1) (by omega) (by omega) (bd (by omega) (by omega)), ok_bind,
    acc _ (-2) y (x - 1) (by omega) (by omega) (bd (by omega) (by omega)) g3, ok_bind,
    acc2 _ y (x + 1) (by omega) (by omega) (bd (by omega) (by omega)), ok_bind,
    acc _ (-1) (y + 1) (x - 1) (by omega) (by omega) (bd (by omega) (by omega)) g1, ok_bind,
    acc1 _ (y + 1) (x + 1) (by omega) (by omega) (bd (by omega) (by omega)), ok_bind,
    ok_bind,
    acc _ (-2) (y - 1) x (by omega) (by omega) (bd (by omega) (by omega)) g3, ok_bind,
    acc _ (-1) (y - 1) (x + 1) (by omega) (by omega) (bd (by omega) (by omega)) g1, ok_bind,
    acc1 _ (y + 1) (x - 1) (by omega) (by omega) (bd (by omega) (by omega)), ok_bind,
    acc2 _ (y + 1) x (by omega) (by omega) (bd (by omega) (by omega)), ok_bind,
    acc1 _ (y + 1) (x + 1) (by omega) (by omega) (bd (by omega) (by omega)), ok_bind]
  have dv : ∀ z Z : ℤ, z = Z → |Z| ≤ 1020 → f64div (z : ℚ) 8 = .ok ((Z : ℚ) / 2 ^ 3) := by
    rintro z _ rfl hz
    rw [show (8 : ℚ) = 2 ^ 3 by norm_num, f64div_ok (by norm_num) (int_le_60 (by omega) 3), rnd64_div_pow 3 (by norm_num) (by omega)]
  rw [dv _ (slopeX w h d x y) (by rw [vx]; ring) sx, ok_bind, dv _ (slopeY w h d x y) (by rw [vy]; ring) sy]
  rfl

/-- Block of a function of the pixel. -/
def pix (w h : Nat) (F : Nat → Nat → ℚ) : List ℚ := arr (w * h) fun k => F (k % w) (k / w)

theorem pix_get {F : Nat → Nat → ℚ} {x y : Nat} (hx : x < w) (hy : y < h) :
    (pix w h F)[y * w + x]? = some (F x y) := by
  unfold pix
  rw [arr_get _ (idx_lt hx hy)]
  have h1 : (y * w + x) % w = x := by rw [Nat.mul_comm, Nat.mul_add_mod, Nat.mod_eq_of_lt hx]
  have h2 : (y * w + x) / w = y := by
    rw [Nat.add_comm, Nat.add_mul_div_right _ _ (by omega), Nat.div_eq_of_lt hx, Nat.zero_add]
  rw [h1, h2]

theorem pix_length (F : Nat → Nat → ℚ) : (pix w h F).length = w * h := arr_length _ _

theorem rd_pix {F : Nat → Nat → ℚ} {x y : Nat} (hx : x < w) (hy : y < h) :
    rd ((pix w h F).map some) (y * w + x) = .ok (F x y) := by
  unfold rd
  rw [List.getElem?_map, pix_get hx hy]
  rfl

theorem split_idx {k : Nat} (hk : k < w * h) : k % w < w ∧ k / w < h ∧ k = k / w * w + k % w := by
  have hw : 0 < w := Nat.pos_of_ne_zero (by rintro rfl; simp at hk)
  refine ⟨Nat.mod_lt _ hw, ?_, ?_⟩
  · rw [Nat.div_lt_iff_lt_mul hw, Nat.mul_comm]; exact hk
  · rw [Nat.mul_comm]; exact (Nat.div_add_mod _ _).symm

/-- The two gradient planes. -/
theorem foerGrads_ok (hw : 0 < w) (hh : 0 < h) (hd : d.length = w * h * 1) (hn : w * h < 4294967296) :
    foerGrads w h d (List.replicate (w * h) (some 0), List.replicate (w * h) (some 0)) =
      .ok ((pix w h fun x y => (slopeX w h d x y : ℚ) / 2 ^ 3).map some,
        (pix w h fun x y => (slopeY w h d x y : ℚ) / 2 ^ 3).map some) := by
  have hw0 : w ≤ w * h := Nat.le_mul_of_pos_right _ (by omega)
  have hh0 : h ≤ w * h := Nat.le_mul_of_pos_left _ (by omega)
  have e1 : u32sub w 1 = w - 1 := u32sub_eq (by omega) (by omega)
  have e2 : u32sub h 1 = h - 1 := u32sub_eq (by omega) (by omega)
  unfold foerGrads
  rw [e1, e2]
  apply Ok.eq
  refine (scan_rect (w := w) (fun V (s : Cells ℚ × Cells ℚ) =>
    Filled (pix w h fun x y => (slopeX w h d x y : ℚ) / 2 ^ 3) V s.1 ∧
    Filled (pix w h fun x y => (slopeY w h d x y : ℚ) / 2 ^ 3) V s.2)
    (fun k => ¬ Inner w h 1 (k % w) (k / w)) ?_ ?_ ?_).mono ?_
  · intro V V' s hV hs
    exact ⟨hs.1.mono fun k _ => hV k, hs.2.mono fun k _ => hV k⟩
  · refine ⟨(replicate_zero_filled _).mono ?_, (replicate_zero_filled _).mono ?_⟩
    · intro k _ hk
      simp only [slopeX, if_neg hk]
      norm_num
    · intro k _ hk
      simp only [slopeY, if_neg hk]
      norm_num
  · intro y x V s h1 h2 h3 h4 hs
    have hi : Inner w h 1 x y := ⟨by omega, by omega, by omega, by omega⟩
    rw [foerGrad_ok hd hn hi, ok_bind, rowCol32_eq (n := w * h) (idx_lt (by omega) (by omega)) (by omega)]
    refine Ok.bind (hs.1.wr (pix_get (by omega) (by omega))) ?_
    intro a ha
    refine Ok.bind (hs.2.wr (pix_get (by omega) (by omega))) ?_
    intro b hb
    exact Ok.pure ⟨ha, hb⟩
  · intro s hs
    have all : ∀ k, k < w * h → (¬ Inner w h 1 (k % w) (k / w) ∨
        ∃ y x, 1 ≤ y ∧ y < h - 1 ∧ 1 ≤ x ∧ x < w - 1 ∧ k = y * w + x) := by
      intro k hk
      obtain ⟨-, -, e⟩ := split_idx hk
      by_cases hi : Inner w h 1 (k % w) (k / w)
      · obtain ⟨i1, i2, i3, i4⟩ := hi
        exact Or.inr ⟨k / w, k % w, i3, by omega, i1, by omega, e⟩
      · exact Or.inl hi
    refine Prod.ext ?_ ?_
    · exact hs.1.done fun k hk => all k (by rwa [pix_length] at hk)
    · exact hs.2.done fun k hk => all k (by rwa [pix_length] at hk)

/-- The three products of gradients. -/
theorem foerProducts_ok {p q : Nat → Nat → ℤ} (hp : ∀ x y, |p x y| ≤ 1020) (hq : ∀ x y, |q x y| ≤ 1020)
    (n : Nat) (hnn : n = w * h) :
    foerProducts n ((pix w h fun x y => (p x y : ℚ) / 2 ^ 3).map some,
        (pix w h fun x y => (q x y : ℚ) / 2 ^ 3).map some)
      (List.replicate n none, List.replicate n none, List.replicate n none) =
      .ok ((pix w h fun x y => ((p x y * p x y : ℤ) : ℚ) / 2 ^ 6).map some,
        (pix w h fun x y => ((p x y * q x y : ℤ) : ℚ) / 2 ^ 6).map some,
        (pix w h fun x y => ((q x y * q x y : ℤ) : ℚ) / 2 ^ 6).map some) := by
  subst hnn
  have mul : ∀ a b : ℤ, |a| ≤ 1020 → |b| ≤ 1020 →
      f64 ((a : ℚ) / 2 ^ 3 * ((b : ℚ) / 2 ^ 3)) = .ok (((a * b : ℤ) : ℚ) / 2 ^ 6) := by
    intro a b ha hb
    have hab : |a * b| ≤ 9007199254740992 := by
      rw [abs_mul]
      calc |a| * |b| ≤ 1020 * 1020 := mul_le_mul ha hb (abs_nonneg _) (by norm_num)
        _ ≤ _ := by norm_num
    have e : (a : ℚ) / 2 ^ 3 * ((b : ℚ) / 2 ^ 3) = ((a * b : ℤ) : ℚ) / 2 ^ 6 := by push_cast; ring
    rw [e, f64_ok (int_le_60 hab 6), rnd64_div_pow 6 (by norm_num) hab]
  unfold foerProducts
  apply Ok.eq
  refine (forN_ok (fun i (s : Tri) =>
    Filled (pix w h fun x y => ((p x y * p x y : ℤ) : ℚ) / 2 ^ 6) (fun k => k < i) s.1 ∧
    Filled (pix w h fun x y => ((p x y * q x y : ℤ) : ℚ) / 2 ^ 6) (fun k => k < i) s.2.1 ∧
    Filled (pix w h fun x y => ((q x y * q x y : ℤ) : ℚ) / 2 ^ 6) (fun k => k < i) s.2.2) ?_ ?_).mono ?_
  · refine ⟨(Filled.start' _ (pix_length _).symm).mono ?_, (Filled.start' _ (pix_length _).symm).mono ?_,
      (Filled.start' _ (pix_length _).symm).mono ?_⟩ <;> intro k _ hk <;> omega
  · intro i hi s hs
    obtain ⟨hx, hy, e⟩ := split_idx hi
    have step : ∀ k, k < i + 1 → (k < i ∨ k = i) := by omega
    have g : ∀ F : Nat → Nat → ℚ, (pix w h F)[i]? = some (F (i % w) (i / w)) := fun F => by
      unfold pix; exact arr_get _ hi
    have r : ∀ F : Nat → Nat → ℚ, rd ((pix w h F).map some) i = .ok (F (i % w) (i / w)) := fun F => by
      unfold pix; exact rd_arr _ hi
    simp only [r, ok_bind]
    rw [mul _ _ (hp _ _) (hp _ _), ok_bind]
    refine Ok.bind (hs.1.wr (g _)) ?_
    intro a ha
    rw [mul _ _ (hp _ _) (hq _ _), ok_bind]
    refine Ok.bind (hs.2.1.wr (g _)) ?_
    intro b hb
    rw [mul _ _ (hq _ _) (hq _ _), ok_bind]
    refine Ok.bind (hs.2.2.wr (g _)) ?_
    intro c hc
    exact Ok.pure ⟨ha.mono fun k _ hk => step k hk, hb.mono fun k _ hk => step k hk,
      hc.mono fun k _ hk => step k hk⟩
  · intro s hs
    have hl : ∀ (F : Nat → Nat → ℚ) k, k < (pix w h F).length → k < w * h := fun F k hk => by
      rwa [pix_length] at hk
    exact Prod.ext (hs.1.done (hl _)) (Prod.ext (hs.2.1.done (hl _)) (hs.2.2.done (hl _)))

/-! ### Window sums -/

/-- The window sum after `j` full rows and `i` further samples. -/
def partSum (k : Nat) (F : Nat → Nat → Int) (x y j i : Nat) : Int :=
  ∑ j' ∈ range j, ∑ i' ∈ range (2 * k + 1), F (x + i' - k) (y + j' - k) +
    ∑ i' ∈ range i, F (x + i' - k) (y + j - k)

theorem partSum_succ (k : Nat) (F : Nat → Nat → Int) (x y j i : Nat) :
    partSum k F x y j (i + 1) = partSum k F x y j i + F (x + i - k) (y + j - k) := by
  unfold partSum
  rw [sum_range_succ _ i]
  ring

theorem partSum_row (k : Nat) (F : Nat → Nat → Int) (x y j : Nat) :
    partSum k F x y j (2 * k + 1) = partSum k F x y (j + 1) 0 := by
  unfold partSum
  rw [sum_range_succ _ j]
  simp

theorem partSum_end (k : Nat) (F : Nat → Nat → Int) (x y : Nat) :
    partSum k F x y (2 * k + 1) 0 = boxSum k F x y := by
  unfold partSum boxSum
  simp

theorem partSum_zero (k : Nat) (F : Nat → Nat → Int) (x y : Nat) : partSum k F x y 0 0 = 0 := by
  simp [partSum]

theorem partSum_abs {k : Nat} {F : Nat → Nat → Int} {B : Int} (hF : ∀ x y, |F x y| ≤ B) (x y j i : Nat) :
    |partSum k F x y j i| ≤ B * ((j * (2 * k + 1) + i : Nat) : Int) := by
  have row : ∀ j i, |∑ i' ∈ range i, F (x + i' - k) (y + j - k)| ≤ B * (i : Int) := by
    intro j i
    refine (abs_sum_le_sum_abs _ _).trans ((sum_le_sum fun a _ => hF _ _).trans ?_)
    rw [sum_const, card_range, nsmul_eq_mul, mul_comm]
  unfold partSum
  refine (abs_add_le _ _).trans ?_
  have h1 : |∑ j' ∈ range j, ∑ i' ∈ range (2 * k + 1), F (x + i' - k) (y + j' - k)| ≤
      B * ((j * (2 * k + 1) : Nat) : Int) := by
    refine (abs_sum_le_sum_abs _ _).trans ((sum_le_sum fun a _ => row a _).trans ?_)
    rw [sum_const, card_range, nsmul_eq_mul]
    push_cast
    exact le_of_eq (by ring)
  have h2 := row j i
  push_cast at h1 h2 ⊢
  linarith [h1, h2]

theorem add_exact {S F : ℤ} (h : |S + F| ≤ 9007199254740992) :
    f64 ((S : ℚ) / 2 ^ 6 + (F : ℚ) / 2 ^ 6) = .ok (((S + F : ℤ) : ℚ) / 2 ^ 6) := by
  have e : (S : ℚ) / 2 ^ 6 + (F : ℚ) / 2 ^ 6 = ((S + F : ℤ) : ℚ) / 2 ^ 6 := by push_cast; ring
  rw [e, f64_ok (int_le_60 h 6), rnd64_div_pow 6 (by norm_num) h]

/-- The sums and the count after `j` rows and `i` samples. -/
def winSt (k : Nat) (Fa Fc Fb : Nat → Nat → Int) (x y j i : Nat) : ℚ × ℚ × ℚ × Int :=
  ((partSum k Fa x y j i : ℚ) / 2 ^ 6, (partSum k Fc x y j i : ℚ) / 2 ^ 6, (partSum k Fb x y j i : ℚ) / 2 ^ 6,
    ((j * (2 * k + 1) + i : Nat) : Int))

theorem sample_idx_eq {k x y i j : Nat} (hn : w * h < 2147483648) (h1 : k ≤ x) (h2 : x + k < w) (h3 : k ≤ y)
    (h4 : y + k < h) (hi : i < 2 * k + 1) (hj : j < 2 * k + 1) :
    i32OfU32 (rowCol32 w (u32OfInt ((y : Int) + ((j : Int) - k))) (u32OfInt ((x : Int) + ((i : Int) - k)))) =
      (((y + j - k) * w + (x + i - k) : Nat) : Int) := by
  have hw0 : w ≤ w * h := Nat.le_mul_of_pos_right _ (by omega)
  have hh0 : h ≤ w * h := Nat.le_mul_of_pos_left _ (by omega)
  have er : u32OfInt ((y : Int) + ((j : Int) - k)) = y + j - k := by
    rw [u32OfInt_eq (by omega) (by omega)]; omega
  have ec : u32OfInt ((x : Int) + ((i : Int) - k)) = x + i - k := by
    rw [u32OfInt_eq (by omega) (by omega)]; omega
  have hlt : (y + j - k) * w + (x + i - k) < w * h := idx_lt (by omega) (by omega)
  rw [er, ec, rowCol32_eq hlt (by omega), i32OfU32_eq (by omega)]

theorem rdZ_pix {F : Nat → Nat → ℚ} {x y : Nat} (hx : x < w) (hy : y < h) :
    rdZ ((pix w h F).map some) ((y * w + x : Nat) : Int) = .ok (F x y) := by
  unfold rdZ
  rw [if_pos (Int.natCast_nonneg _), Int.toNat_natCast]
  exact rd_pix hx hy

theorem partSum_bound {k x y j i : Nat} {F : Nat → Nat → Int} (hF : ∀ x y, |F x y| ≤ 1040400)
    (hc : j * (2 * k + 1) + (i + 1) ≤ 2147483648) :
    |partSum k F x y j i + F (x + i - k) (y + j - k)| ≤ 9007199254740992 := by
  rw [← partSum_succ]
  refine (partSum_abs hF x y j (i + 1)).trans ?_
  have : ((j * (2 * k + 1) + (i + 1) : Nat) : Int) ≤ 2147483648 := by exact_mod_cast hc
  omega

theorem count_ok {m : Nat} (h : m + 1 < 2147483648) : i32 ((m : Int) + 1) = .ok ((m + 1 : Nat) : Int) := by
  rw [i32_ok (by constructor <;> omega)]
  push_cast
  rfl

theorem foerWindow_ok {k x y : Nat} {Fa Fc Fb : Nat → Nat → Int} (ha : ∀ x y, |Fa x y| ≤ 1040400)
    (hc : ∀ x y, |Fc x y| ≤ 1040400) (hb : ∀ x y, |Fb x y| ≤ 1040400) (hn : w * h < 2147483648)
    (hi : Inner w h k x y) :
    foerWindow w k y x ((pix w h fun x y => (Fa x y : ℚ) / 2 ^ 6).map some,
      (pix w h fun x y => (Fc x y : ℚ) / 2 ^ 6).map some, (pix w h fun x y => (Fb x y : ℚ) / 2 ^ 6).map some) =
      .ok ((boxSum k Fa x y : ℚ) / 2 ^ 6, (boxSum k Fc x y : ℚ) / 2 ^ 6, (boxSum k Fb x y : ℚ) / 2 ^ 6,
        (((2 * k + 1) * (2 * k + 1) : Nat) : Int)) := by
  obtain ⟨i1, i2, i3, i4⟩ := hi
  have hK : (2 * k + 1) * (2 * k + 1) ≤ w * h := Nat.mul_le_mul (by omega) (by omega)
  have fin : winSt k Fa Fc Fb x y (2 * k + 1) 0 = ((boxSum k Fa x y : ℚ) / 2 ^ 6, (boxSum k Fc x y : ℚ) / 2 ^ 6,
      (boxSum k Fb x y : ℚ) / 2 ^ 6, (((2 * k + 1) * (2 * k + 1) : Nat) : Int)) := by
    unfold winSt
    rw [partSum_end, partSum_end, partSum_end, Nat.add_zero]
  rw [← fin]
  unfold foerWindow
  apply Ok.eq
  refine forN_ok (fun j s => s = winSt k Fa Fc Fb x y j 0) ?_ ?_
  · unfold winSt
    rw [partSum_zero, partSum_zero, partSum_zero]
    simp
  · intro j hj s hs
    rw [hs]
    clear hs s
    refine (forN_ok (fun i s => s = winSt k Fa Fc Fb x y j i) (Eq.refl _) ?_).mono ?_
    · intro i hi s hs
      rw [hs]
      clear hs s
      have hcnt : j * (2 * k + 1) + i + 1 ≤ (2 * k + 1) * (2 * k + 1) := by
        have : (j + 1) * (2 * k + 1) ≤ (2 * k + 1) * (2 * k + 1) := Nat.mul_le_mul_right _ (by omega)
        have e : (j + 1) * (2 * k + 1) = j * (2 * k + 1) + (2 * k + 1) := by ring
        omega
      have e := sample_idx_eq hn i1 i2 i3 i4 hi hj
      have hx : x + i - k < w := by omega
      have hy : y + j - k < h := by omega
      have b1 := partSum_bound (x := x) (y := y) ha (by omega : j * (2 * k + 1) + (i + 1) ≤ 2147483648)
      have b2 := partSum_bound (x := x) (y := y) hc (by omega : j * (2 * k + 1) + (i + 1) ≤ 2147483648)
      have b3 := partSum_bound (x := x) (y := y) hb (by omega : j * (2 * k + 1) + (i + 1) ≤ 2147483648)
      have hcI := count_ok (by omega : j * (2 * k + 1) + i + 1 < 2147483648)
      dsimp only []
      rw [e, rdZ_pix hx hy, rdZ_pix hx hy, rdZ_pix hx hy]
      unfold winSt
      dsimp only []
      rw [ok_bind, add_exact b1, ok_bind, ok_bind, add_exact b2, ok_bind, ok_bind, add_exact b3, ok_bind, hcI, ok_bind]
      rw [← partSum_succ, ← partSum_succ, ← partSum_succ]
      exact Ok.pure (Eq.refl _)
    · intro s hs
      rw [hs]
      unfold winSt
      rw [partSum_row, partSum_row, partSum_row, show (j + 1) * (2 * k + 1) = j * (2 * k + 1) + (2 * k + 1) by ring, Nat.add_zero (j * (2 * k + 1) + (2 * k + 1))]

theorem boxSum_abs {k : Nat} {F : Nat → Nat → Int} {B : Int} (hF : ∀ x y, |F x y| ≤ B) (x y : Nat) :
    |boxSum k F x y| ≤ B * (((2 * k + 1) * (2 * k + 1) : Nat) : Int) := by
  rw [← partSum_end]
  exact partSum_abs hF x y (2 * k + 1) 0

theorem tensor_abs {k : Nat} {p q : Nat → Nat → Int} (hF : ∀ x y, |p x y * q x y| ≤ 1040400) (x y : Nat) :
    |tensor w h k p q x y| ≤ 2 ^ 15 := by
  unfold tensor
  split_ifs
  · have := boxSum_abs (k := k) hF x y
    have h2 : |(boxSum k (fun x y => p x y * q x y) x y : ℚ)| ≤ 1040400 * (2 * (k : ℚ) + 1) ^ 2 := by
      rw [← Int.cast_abs]
      have : ((|boxSum k (fun x y => p x y * q x y) x y| : ℤ) : ℚ) ≤
          ((1040400 * (((2 * k + 1) * (2 * k + 1) : Nat) : Int) : ℤ) : ℚ) := by exact_mod_cast this
      refine this.trans (le_of_eq ?_)
      push_cast
      ring
    have hp : (0 : ℚ) < (2 * (k : ℚ) + 1) ^ 2 := by positivity
    rw [abs_div, abs_div, abs_of_pos hp, abs_of_pos (by norm_num : (0 : ℚ) < 64), div_le_iff₀ hp,
      div_le_iff₀ (by norm_num)]
    nlinarith
  · norm_num

/-- The three smoothed planes. -/
theorem foerSmooth_ok {k : Nat} {p q : Nat → Nat → Int} (hpp : ∀ x y, |p x y * p x y| ≤ 1040400)
    (hpq : ∀ x y, |p x y * q x y| ≤ 1040400) (hqq : ∀ x y, |q x y * q x y| ≤ 1040400)
    (hw : 0 < w) (hh : 0 < h) (hn : w * h < 2147483648)
    (hfit : (k ≤ w ∧ k ≤ h) ∨ (k ≤ h ∧ h ≤ 2 * k) ∨ (k ≤ w ∧ w ≤ 2 * k)) :
    foerSmooth w h k ((pix w h fun x y => ((p x y * p x y : ℤ) : ℚ) / 2 ^ 6).map some,
        (pix w h fun x y => ((p x y * q x y : ℤ) : ℚ) / 2 ^ 6).map some,
        (pix w h fun x y => ((q x y * q x y : ℤ) : ℚ) / 2 ^ 6).map some)
      (List.replicate (w * h) (some 0), List.replicate (w * h) (some 0), List.replicate (w * h) (some 0)) =
      .ok ((pix w h fun x y => Fmt.b64.rnd (tensor w h k p p x y)).map some,
        (pix w h fun x y => Fmt.b64.rnd (tensor w h k p q x y)).map some,
        (pix w h fun x y => Fmt.b64.rnd (tensor w h k q q x y)).map some) := by
  have hw0 : w ≤ w * h := Nat.le_mul_of_pos_right _ (by omega)
  have hh0 : h ≤ w * h := Nat.le_mul_of_pos_left _ (by omega)
  have e1 : k ≤ w → u32sub w k = w - k := fun hk => u32sub_eq (by omega) (by omega)
  have e2 : k ≤ h → u32sub h k = h - k := fun hk => u32sub_eq (by omega) (by omega)
  have inn : ∀ {x y : Nat}, k ≤ y → y < u32sub h k → k ≤ x → x < u32sub w k → Inner w h k x y := by
    intro x y h1 h2 h3 h4
    rcases hfit with ⟨f1, f2⟩ | ⟨f1, f2⟩ | ⟨f1, f2⟩
    · rw [e2 f2] at h2
      rw [e1 f1] at h4
      exact ⟨by omega, by omega, by omega, by omega⟩
    · rw [e2 f1] at h2
      omega
    · rw [e1 f1] at h4
      omega
  have dv : ∀ {p q : Nat → Nat → Int}, (∀ x y, |p x y * q x y| ≤ 1040400) → ∀ {x y}, Inner w h k x y →
      f64div ((boxSum k (fun x y => p x y * q x y) x y : ℚ) / 2 ^ 6) ((((2 * k + 1) * (2 * k + 1) : Nat) : Int) : ℚ) =
        .ok (Fmt.b64.rnd (tensor w h k p q x y)) := by
    intro p q hpq x y hi
    have hab := tensor_abs (w := w) (h := h) (k := k) hpq x y
    have e : (boxSum k (fun x y => p x y * q x y) x y : ℚ) / 2 ^ 6 / ((((2 * k + 1) * (2 * k + 1) : Nat) : Int) : ℚ) =
        tensor w h k p q x y := by
      unfold tensor
      rw [if_pos hi]
      push_cast
      ring
    have hne : ((((2 * k + 1) * (2 * k + 1) : Nat) : Int) : ℚ) ≠ 0 := by
      push_cast
      positivity
    rw [f64div_ok hne (by rw [e]; exact hab.trans (by norm_num)), e]
  unfold foerSmooth
  apply Ok.eq
  refine (scan_rect (w := w) (fun V (s : Tri) =>
    Filled (pix w h fun x y => Fmt.b64.rnd (tensor w h k p p x y)) V s.1 ∧
    Filled (pix w h fun x y => Fmt.b64.rnd (tensor w h k p q x y)) V s.2.1 ∧
    Filled (pix w h fun x y => Fmt.b64.rnd (tensor w h k q q x y)) V s.2.2)
    (fun i => ¬ Inner w h k (i % w) (i / w)) ?_ ?_ ?_).mono ?_
  · intro V V' s hV hs
    exact ⟨hs.1.mono fun k _ => hV k, hs.2.1.mono fun k _ => hV k, hs.2.2.mono fun k _ => hV k⟩
  · have z : ∀ p q : Nat → Nat → Int, ∀ i, ¬ Inner w h k (i % w) (i / w) →
        Fmt.b64.rnd (tensor w h k p q (i % w) (i / w)) = 0 := by
      intro p q i hi
      unfold tensor
      rw [if_neg hi, rnd_zero]
    exact ⟨(replicate_zero_filled _).mono fun i _ => z _ _ i, (replicate_zero_filled _).mono fun i _ => z _ _ i,
      (replicate_zero_filled _).mono fun i _ => z _ _ i⟩
  · intro y x V s h1 h2 h3 h4 hs
    have hi : Inner w h k x y := inn h1 h2 h3 h4
    have hx : x < w := by have := hi.2.1; omega
    have hy : y < h := by have := hi.2.2.2; omega
    rw [foerWindow_ok hpp hpq hqq hn hi, ok_bind]
    dsimp only []
    rw [rowCol32_eq (n := w * h) (idx_lt hx hy) (by omega)]
    rw [dv hpp hi, ok_bind]
    refine Ok.bind (hs.1.wr (pix_get hx hy)) ?_
    intro a ha
    rw [dv hpq hi, ok_bind]
    refine Ok.bind (hs.2.1.wr (pix_get hx hy)) ?_
    intro b hb
    rw [dv hqq hi, ok_bind]
    refine Ok.bind (hs.2.2.wr (pix_get hx hy)) ?_
    intro c hc
    exact Ok.pure ⟨ha, hb, hc⟩
  · intro s hs
    have all : ∀ i, i < w * h → (¬ Inner w h k (i % w) (i / w) ∨
        ∃ y x, k ≤ y ∧ y < u32sub h k ∧ k ≤ x ∧ x < u32sub w k ∧ i = y * w + x) := by
      intro i hk
      obtain ⟨-, -, e⟩ := split_idx hk
      by_cases hi : Inner w h k (i % w) (i / w)
      · obtain ⟨i1, i2, i3, i4⟩ := hi
        exact Or.inr ⟨i / w, i % w, i3, by rw [e2 (by omega)]; omega, i1, by rw [e1 (by omega)]; omega, e⟩
      · exact Or.inl hi
    have hl : ∀ (F : Nat → Nat → ℚ) i, i < (pix w h F).length → i < w * h := fun F k hk => by
      rwa [pix_length] at hk
    exact Prod.ext (hs.1.done fun i hi => all i (hl _ i hi)) (Prod.ext (hs.2.1.done fun i hi => all i (hl _ i hi))
      (hs.2.2.done fun i hi => all i (hl _ i hi)))

/-! ### Measures and bytes -/

/-- `M` is the maximum of `F` over the first `n` positions, or 0. -/
def IsMax (n : Nat) (F : Nat → ℚ) (M : ℚ) : Prop := (∀ k, k < n → F k ≤ M) ∧ 0 ≤ M ∧ (M = 0 ∨ ∃ k, k < n ∧ F k = M)

theorem IsMax.step {n : Nat} {F : Nat → ℚ} {M : ℚ} (h : IsMax n F M) :
    IsMax (n + 1) F (if F n > M then F n else M) := by
  obtain ⟨h1, h2, h3⟩ := h
  split_ifs with hc
  · refine ⟨?_, (h2.trans hc.le), Or.inr ⟨n, by omega, rfl⟩⟩
    intro k hk
    rcases Nat.lt_or_ge k n with hlt | hge
    · exact (h1 k hlt).trans hc.le
    · rw [show k = n by omega]
  · refine ⟨?_, h2, h3.imp_right fun ⟨k, hk, e⟩ => ⟨k, by omega, e⟩⟩
    intro k hk
    rcases Nat.lt_or_ge k n with hlt | hge
    · exact h1 k hlt
    · rw [show k = n by omega]; exact not_lt.1 hc

theorem foerFirst_ok {A C B : Nat → Nat → ℚ} (hA : ∀ x y, |A x y| ≤ 2 ^ 15) (hC : ∀ x y, |C x y| ≤ 2 ^ 15)
    (hB : ∀ x y, |B x y| ≤ 2 ^ 15) (n : Nat) (hnn : n = w * h) :
    Ok (foerFirst n ((pix w h A).map some, (pix w h C).map some, (pix w h B).map some)
      (List.replicate n none) (List.replicate n none)) fun s =>
      s.ws = (pix w h fun x y => wF (A x y) (C x y) (B x y)).map some ∧
      s.qs = (pix w h fun x y => qF (A x y) (C x y) (B x y)).map some ∧
      IsMax n (fun k => wF (A (k % w) (k / w)) (C (k % w) (k / w)) (B (k % w) (k / w))) s.max_w ∧
      IsMax n (fun k => qF (A (k % w) (k / w)) (C (k % w) (k / w)) (B (k % w) (k / w))) s.max_q := by
  subst hnn
  unfold foerFirst
  refine (forN_ok (fun i (s : FoerState) =>
    Filled (pix w h fun x y => wF (A x y) (C x y) (B x y)) (fun k => k < i) s.ws ∧
    Filled (pix w h fun x y => qF (A x y) (C x y) (B x y)) (fun k => k < i) s.qs ∧
    IsMax i (fun k => wF (A (k % w) (k / w)) (C (k % w) (k / w)) (B (k % w) (k / w))) s.max_w ∧
    IsMax i (fun k => qF (A (k % w) (k / w)) (C (k % w) (k / w)) (B (k % w) (k / w))) s.max_q) ?_ ?_).mono ?_
  · refine ⟨(Filled.start' _ (pix_length _).symm).mono ?_, (Filled.start' _ (pix_length _).symm).mono ?_,
      ⟨?_, le_refl _, Or.inl rfl⟩, ⟨?_, le_refl _, Or.inl rfl⟩⟩
    · intro k _ hk; omega
    · intro k _ hk; omega
    · intro k hk; omega
    · intro k hk; omega
  · intro i hi s hs
    have step : ∀ k, k < i + 1 → (k < i ∨ k = i) := by omega
    have g : ∀ F : Nat → Nat → ℚ, (pix w h F)[i]? = some (F (i % w) (i / w)) := fun F => by
      unfold pix; exact arr_get _ hi
    have r : ∀ F : Nat → Nat → ℚ, rd ((pix w h F).map some) i = .ok (F (i % w) (i / w)) := fun F => by
      unfold pix; exact rd_arr _ hi
    simp only [r, ok_bind]
    rw [(foerMeasure_ok (hA _ _) (hC _ _) (hB _ _)).1, ok_bind]
    refine Ok.bind (hs.1.wr (g _)) ?_
    intro a ha
    refine Ok.bind (hs.2.1.wr (g _)) ?_
    intro b hb
    exact Ok.pure ⟨ha.mono fun k _ hk => step k hk, hb.mono fun k _ hk => step k hk,
      hs.2.2.1.step, hs.2.2.2.step⟩
  · intro s hs
    have hl : ∀ (F : Nat → Nat → ℚ) k, k < (pix w h F).length → k < w * h := fun F k hk => by
      rwa [pix_length] at hk
    exact ⟨hs.1.done (hl _), hs.2.1.done (hl _), hs.2.2.1, hs.2.2.2⟩

theorem foerSecond_ok {W Q : Nat → Nat → ℚ} {s : FoerState} (hn : w * h < 2147483648)
    (hW : ∀ x y, x < w → y < h → foerByte s.max_w (W x y) = .ok (byteF s.max_w (W x y)))
    (hQ : ∀ x y, x < w → y < h → foerByte s.max_q (Q x y) = .ok (byteF s.max_q (Q x y)))
    (e1 : s.ws = (pix w h W).map some) (e2 : s.qs = (pix w h Q).map some) (n : Nat) (hnn : n = w * h) :
    foerSecond n s (List.replicate (n * 2) none) =
      .ok ((mkImg w h 2 fun x y c => if c = 0 then byteF s.max_w (W x y) else byteF s.max_q (Q x y)).map some) := by
  subst hnn
  unfold foerSecond
  apply Ok.eq
  rw [e1, e2]
  refine (Filled.loop (out := mkImg w h 2 fun x y c => if c = 0 then byteF s.max_w (W x y) else byteF s.max_q (Q x y))
    (fun i k => k / 2 = i) (Filled.start' _ (mkImg_length _ _ _ _).symm) ?_).mono ?_
  · intro i hi V t ht
    obtain ⟨hx, hy, e⟩ := split_idx hi
    have r : ∀ F : Nat → Nat → ℚ, rd ((pix w h F).map some) i = .ok (F (i % w) (i / w)) := fun F => by
      unfold pix; exact rd_arr _ hi
    have i1 : u32 (i * 2) = i * 2 := u32_eq (by omega)
    have i2 : u32 (i * 2 + 1) = i * 2 + 1 := u32_eq (by omega)
    rw [r, ok_bind, hW _ _ hx hy, ok_bind, r, ok_bind, hQ _ _ hx hy, ok_bind, i1, i2]
    have g0 := mkImg_getElem? (f := fun x y c => if c = 0 then byteF s.max_w (W x y) else byteF s.max_q (Q x y))
      (ch := 2) hx hy (c := 0) (by omega)
    have g1 := mkImg_getElem? (f := fun x y c => if c = 0 then byteF s.max_w (W x y) else byteF s.max_q (Q x y))
      (ch := 2) hx hy (c := 1) (by omega)
    rw [← e] at g0 g1
    rw [Nat.add_zero] at g0
    refine Ok.bind (ht.wr g0) ?_
    intro a ha
    refine (ha.wr g1).mono ?_
    intro b hb
    refine hb.mono ?_
    rintro k - (hk | hk)
    · exact Or.inl (Or.inl hk)
    · have : k = i * 2 ∨ k = i * 2 + 1 := by omega
      rcases this with rfl | rfl
      · exact Or.inl (Or.inr rfl)
      · exact Or.inr rfl
  · intro t ht
    refine ht.done ?_
    intro k hk
    rw [mkImg_length] at hk
    exact Or.inr ⟨k / 2, by omega, rfl⟩

end

end FlatCV
