/-
Corner response: images smaller than the smoothing window, and the exact measures.
-/
import Verif.Lemmas.FoerstnerCall
import Verif.Lemmas.Draw
import Mathlib.Algebra.Order.BigOperators.Ring.Finset

namespace FlatCV
open Model Spec Finset

theorem forN_some_err {σ : Type} {n i : Nat} {s : σ} {body : Nat → σ → CM σ} (hi : i < n)
    (hb : ∀ t, ∃ e, body i t = .error e) : ∃ e, forN n s body = .error e := by
  cases hf : forN i s body with
  | ok t =>
    obtain ⟨e, he⟩ := hb t
    exact ⟨e, forN_err hi hf he⟩
  | error e =>
    obtain ⟨m, rfl⟩ : ∃ m, n = i + m := ⟨n - i, by omega⟩
    refine ⟨e, ?_⟩
    clear hi
    induction m with
    | zero => exact hf
    | succ m ih => rw [← Nat.add_assoc, forN_succ, ih]; rfl

/-- The call ends in a fault. -/
def HErr {α : Type} (m : HM α) (h : Heap) : Prop := ∃ e, m h = .error e

theorem err_malloc {α β : Type} {hp : Heap} {m n : Nat} {J : List Nat} {f : Option (Buf α) → HM β}
    (hf : ∀ i, hp.fails i = false)
    (hs : HErr (f (some ⟨hp.next + m, List.replicate n none⟩)) (duringCall hp (m + 1) (m :: J))) :
    HErr (malloc α n >>= f) (duringCall hp m J) := by
  obtain ⟨e, he⟩ := hs
  refine ⟨e, ?_⟩
  have : malloc α n (duringCall hp m J) = .ok (some ⟨hp.next + m, List.replicate n none⟩, duringCall hp (m + 1) (m :: J)) := by
    unfold malloc
    exact if_neg (by simp [duringCall, hf])
  rw [hm_bind, this]
  exact he

theorem err_calloc {α β : Type} {hp : Heap} {m n : Nat} {z : α} {J : List Nat} {f : Option (Buf α) → HM β}
    (hf : ∀ i, hp.fails i = false)
    (hs : HErr (f (some ⟨hp.next + m, List.replicate n (some z)⟩)) (duringCall hp (m + 1) (m :: J))) :
    HErr (calloc n z >>= f) (duringCall hp m J) := by
  obtain ⟨e, he⟩ := hs
  refine ⟨e, ?_⟩
  have : calloc n z (duringCall hp m J) = .ok (some ⟨hp.next + m, List.replicate n (some z)⟩, duringCall hp (m + 1) (m :: J)) := by
    unfold calloc
    exact if_neg (by simp [duringCall, hf])
  rw [hm_bind, this]
  exact he

theorem err_use {α β : Type} {hp : Heap} {m : Nat} {J K : List Nat} {c : CM α} {v : α} {f : α → HM β}
    (hc : c = .ok v) (hK : ∀ i ∈ K, i ∈ J) (hs : HErr (f v) (duringCall hp m J)) :
    HErr (use (K.map (hp.next + ·)) c >>= f) (duringCall hp m J) := by
  obtain ⟨e, he⟩ := hs
  refine ⟨e, ?_⟩
  have : use (K.map (hp.next + ·)) c (duringCall hp m J) = .ok (v, duringCall hp m J) := by
    unfold use
    rw [if_pos, hc]
    · intro i hi
      obtain ⟨j, hj, rfl⟩ := List.mem_map.1 hi
      exact List.mem_append_left _ (List.mem_map_of_mem (hK j hj))
  rw [hm_bind, this]
  exact he

theorem err_stop {α β : Type} {hp : Heap} {m : Nat} {J K : List Nat} {c : CM α} {f : α → HM β}
    (hc : ∃ e, c = .error e) (hK : ∀ i ∈ K, i ∈ J) :
    HErr (use (K.map (hp.next + ·)) c >>= f) (duringCall hp m J) := by
  obtain ⟨e, he⟩ := hc
  refine ⟨.comp e, ?_⟩
  have : use (K.map (hp.next + ·)) c (duringCall hp m J) = .error (.comp e) := by
    unfold use
    rw [if_pos, he]
    · intro i hi
      obtain ⟨j, hj, rfl⟩ := List.mem_map.1 hi
      exact List.mem_append_left _ (List.mem_map_of_mem (hK j hj))
  rw [hm_bind, this]

section
variable {P : Plat} {w h : Nat} {d : List UInt8}

/-- A window that reaches past the last sample. -/
theorem foerWindow_err {k x y : Nat} {t : Tri} (ht : t.1.length = w * h)
    (hb : (y + k) * w + (x + k) < 2147483648) (hpast : w * h ≤ (y + k) * w + (x + k)) (hy : y + k < 4294967296) :
    ∃ e, foerWindow w k y x t = .error e := by
  unfold foerWindow
  refine forN_some_err (i := 2 * k) (by omega) ?_
  intro s
  refine forN_some_err (i := 2 * k) (by omega) ?_
  intro s
  refine ⟨.oobRead, ?_⟩
  have er : u32OfInt ((y : Int) + (((2 * k : Nat) : Int) - k)) = y + k := by
    rw [u32OfInt_eq (by omega) (by omega)]; omega
  have ec : u32OfInt ((x : Int) + (((2 * k : Nat) : Int) - k)) = x + k := by
    rw [u32OfInt_eq (by omega) (by omega)]; omega
  have e : rdZ t.1 (((y + k) * w + (x + k) : Nat) : Int) = .error .oobRead := by
    unfold rdZ
    rw [if_pos (Int.natCast_nonneg _), Int.toNat_natCast]
    unfold rd
    rw [List.getElem?_eq_none (by omega)]
  dsimp only []
  rw [er, ec, rowCol32_eq (n := (y + k) * w + (x + k) + 1) (by omega) (by omega), i32OfU32_eq (by omega), e]
  rfl

theorem foerSmooth_err {k : Nat} {t s : Tri} (hw : 0 < w) (hh : 0 < h) (ht : t.1.length = w * h)
    (hb : (2 * k + h) * (w + 1) < 2147483648)
    (hbad : (h < k ∧ (w < k ∨ 2 * k < w)) ∨ (2 * k < h ∧ w < k)) :
    ∃ e, foerSmooth w h k t s = .error e := by
  have m1 : (2 * k + h) * (w + 1) = 2 * k * w + 2 * k + (h * w + h) := by ring
  have hhw : h ≤ h * w := Nat.le_mul_of_pos_right _ hw
  have hwh : w ≤ h * w := Nat.le_mul_of_pos_left _ hh
  have hkw : 2 * k ≤ 2 * k * w := Nat.le_mul_of_pos_right _ hw
  have hk0 : k < 2147483648 := by omega
  have rX : w < k → u32sub w k = w + 4294967296 - k := fun hlt => by
    unfold u32sub; omega
  have rH : h < k → u32sub h k = h + 4294967296 - k := fun hlt => by
    unfold u32sub; omega
  have lX : (w < k ∨ 2 * k < w) → k < u32sub w k := by
    rintro (hlt | hlt)
    · rw [rX hlt]; omega
    · rw [u32sub_eq (by omega) (by omega)]; omega
  -- the pixel `(y, k)` is visited, and its window reaches past the end
  have go : ∀ y, k ≤ y → y < u32sub h k → k < u32sub w k → (y + k) * w + (k + k) < 2147483648 →
      w * h ≤ (y + k) * w + (k + k) → y + k < 4294967296 → ∃ e, foerSmooth w h k t s = .error e := by
    intro y h1 h2 h3 h4 h5 h6
    unfold foerSmooth
    unfold forFrom
    refine forN_some_err (i := y - k) (by omega) ?_
    intro s
    dsimp only []
    refine forN_some_err (i := 0) (by omega) ?_
    intro s
    rw [show k + (y - k) = y by omega, Nat.add_zero]
    obtain ⟨e, he⟩ := foerWindow_err (x := k) ht h4 h5 h6
    exact ⟨e, by rw [he]; rfl⟩
  rcases hbad with ⟨b1, b2⟩ | ⟨b1, b2⟩
  · refine go k le_rfl ?_ (lX b2) ?_ ?_ (by omega)
    · rw [rH b1]; omega
    · have e : (k + k) * w = 2 * k * w := by ring
      omega
    · have e : (k + k) * w = 2 * k * w := by ring
      have : w * h ≤ 2 * k * w := by rw [Nat.mul_comm]; exact Nat.mul_le_mul_right _ (by omega)
      omega
  · have e2 : u32sub h k = h - k := u32sub_eq (by omega) (by omega)
    have e : (h - k - 1 + k) * w + w = h * w := by
      rw [show h - k - 1 + k = h - 1 by omega]
      obtain ⟨g, rfl⟩ : ∃ g, h = g + 1 := ⟨h - 1, by omega⟩
      rw [Nat.add_sub_cancel]; ring
    refine go (h - k - 1) (by omega) (by rw [e2]; omega) (lX (Or.inl b2)) ?_ ?_ (by omega)
    · omega
    · rw [Nat.mul_comm w h]; omega

/-- Such images make the call read out of bounds. -/
theorem foerstner_err (im : Img P w h 1 d) (hn : w * h < 2147483648) (h8 : w * h * 8 ≤ P.szMax)
    {σ : Dbl} {k : Nat} (hk : foerHalf σ = .ok k) (hb : (2 * k + h) * (w + 1) < 2147483648)
    (hbad : (h < k ∧ (w < k ∨ 2 * k < w)) ∨ (2 * k < h ∧ w < k)) {hp : Heap} (hf : ∀ i, hp.fails i = false) :
    ∃ e, fcv_foerstner_corner P w h (some d) σ hp = .error e := by
  have hw := im.w_pos
  have hh := im.h_pos
  have sx := slopeX_abs w h d
  have sy := slopeY_abs w h d
  have z : ¬ (w = 0 ∨ h = 0) := by omega
  have e32 : u32 (w * h) = w * h := u32_eq (by omega)
  have e2 : u32 (w * h * 2) = w * h * 2 := u32_eq (by omega)
  have esz : P.sz (w * h * 8) / 8 = w * h := by rw [P.sz_eq' h8]; omega
  have g8 : ¬ w * h * 8 > P.szMax := by omega
  have l1 := foerGrads_ok hw hh im.len (by omega)
  have l2 := foerProducts_ok (w := w) (h := h) sx sy (w * h) rfl
  have l3 : ∀ s, ∃ e, foerSmooth w h k
      ((pix w h fun x y => ((slopeX w h d x y * slopeX w h d x y : ℤ) : ℚ) / 2 ^ 6).map some,
        (pix w h fun x y => ((slopeX w h d x y * slopeY w h d x y : ℤ) : ℚ) / 2 ^ 6).map some,
        (pix w h fun x y => ((slopeY w h d x y * slopeY w h d x y : ℤ) : ℚ) / 2 ^ 6).map some) s = .error e :=
    fun s => foerSmooth_err hw hh (by simp [pix_length]) hb hbad
  have dc : ∀ {f : Option (Buf ℚ) → HM (Option (Buf UInt8))} {m : Nat} {J : List Nat},
      HErr (f (some ⟨hp.next + m, List.replicate (w * h) (some 0)⟩)) (duringCall hp (m + 1) (m :: J)) →
      HErr (callocD P (w * h) >>= f) (duringCall hp m J) := by
    intro f m J b
    unfold callocD
    rw [if_neg g8]
    exact err_calloc hf b
  have dm : ∀ {f : Option (Buf ℚ) → HM (Option (Buf UInt8))} {m : Nat} {J : List Nat},
      HErr (f (some ⟨hp.next + m, List.replicate (w * h) none⟩)) (duringCall hp (m + 1) (m :: J)) →
      HErr (mallocD P (w * h) >>= f) (duringCall hp m J) := by
    intro f m J b
    unfold mallocD
    rw [esz]
    exact err_malloc hf b
  show HErr _ hp
  unfold fcv_foerstner_corner
  simp only [z, if_false, e32, e2]
  conv => arg 2; rw [duringCall_start hp]
  refine dc (dc ?_)
  refine err_use (K := [0, 1]) l1 (by decide) ?_
  refine dm (dm (dm ?_))
  refine err_use (K := [0, 1, 2, 3, 4]) l2 (by decide) ?_
  refine err_use (K := []) hk (by decide) ?_
  refine dc (dc (dc ?_))
  exact err_stop (K := [2, 3, 4, 5, 6, 7]) (l3 _) (by decide)

/-! ### The measures -/

theorem boxSum_pair (k : Nat) (F : Nat → Nat → Int) (x y : Nat) :
    boxSum k F x y = ∑ r ∈ range (2 * k + 1) ×ˢ range (2 * k + 1), F (x + r.2 - k) (y + r.1 - k) := by
  unfold boxSum
  rw [sum_product]

theorem boxSum_nonneg {k : Nat} {F : Nat → Nat → Int} (hF : ∀ x y, 0 ≤ F x y) (x y : Nat) : 0 ≤ boxSum k F x y :=
  sum_nonneg fun _ _ => sum_nonneg fun _ _ => hF _ _

theorem boxSum_cs (k : Nat) (p q : Nat → Nat → Int) (x y : Nat) :
    boxSum k (fun x y => p x y * q x y) x y * boxSum k (fun x y => p x y * q x y) x y ≤
      boxSum k (fun x y => p x y * p x y) x y * boxSum k (fun x y => q x y * q x y) x y := by
  rw [boxSum_pair, boxSum_pair, boxSum_pair]
  have := sum_mul_sq_le_sq_mul_sq (range (2 * k + 1) ×ˢ range (2 * k + 1))
    (fun r => p (x + r.2 - k) (y + r.1 - k)) (fun r => q (x + r.2 - k) (y + r.1 - k))
  simp only [sq] at this
  exact this

theorem tensor_facts {k : Nat} (hk : k ≤ 4999) (p q : Nat → Nat → Int) (x y : Nat) :
    let A := tensor w h k p p x y
    let B := tensor w h k q q x y
    let C := tensor w h k p q x y
    (A = 0 ∨ 15 / 10 ^ 11 ≤ A) ∧ (B = 0 ∨ 15 / 10 ^ 11 ≤ B) ∧ (C = 0 ∨ 15 / 10 ^ 11 ≤ |C|) ∧ C * C ≤ A * B := by
  intro A B C
  by_cases hi : Inner w h k x y
  · have hkq : (2 * (k : ℚ) + 1) ^ 2 ≤ 9999 ^ 2 := by
      have : (k : ℚ) ≤ 4999 := by exact_mod_cast hk
      have : (0 : ℚ) ≤ k := by positivity
      nlinarith
    have hN : (0 : ℚ) < (2 * (k : ℚ) + 1) ^ 2 := by positivity
    have big : ∀ z : ℤ, 1 ≤ |z| → (15 : ℚ) / 10 ^ 11 ≤ |(z : ℚ) / 64 / (2 * k + 1) ^ 2| := by
      intro z hz
      rw [abs_div, abs_div, abs_of_pos hN, abs_of_pos (by norm_num : (0 : ℚ) < 64), ← Int.cast_abs, le_div_iff₀ hN,
        le_div_iff₀ (by norm_num)]
      have : (1 : ℚ) ≤ ((|z| : ℤ) : ℚ) := by exact_mod_cast hz
      linarith
    have eA : A = (boxSum k (fun x y => p x y * p x y) x y : ℚ) / 64 / (2 * k + 1) ^ 2 := if_pos hi
    have eB : B = (boxSum k (fun x y => q x y * q x y) x y : ℚ) / 64 / (2 * k + 1) ^ 2 := if_pos hi
    have eC : C = (boxSum k (fun x y => p x y * q x y) x y : ℚ) / 64 / (2 * k + 1) ^ 2 := if_pos hi
    have pos : ∀ p : Nat → Nat → Int, (boxSum k (fun x y => p x y * p x y) x y : ℚ) / 64 / (2 * k + 1) ^ 2 = 0 ∨
        (15 : ℚ) / 10 ^ 11 ≤ (boxSum k (fun x y => p x y * p x y) x y : ℚ) / 64 / (2 * k + 1) ^ 2 := by
      intro p
      have h0 : 0 ≤ boxSum k (fun x y => p x y * p x y) x y := boxSum_nonneg (fun x y => mul_self_nonneg _) x y
      rcases h0.eq_or_lt with e | e
      · left; rw [← e]; simp
      · right
        have := big _ (by rw [abs_of_pos e]; omega : 1 ≤ |boxSum k (fun x y => p x y * p x y) x y|)
        rwa [abs_of_nonneg] at this
        have : (0 : ℚ) ≤ (boxSum k (fun x y => p x y * p x y) x y : ℚ) := by exact_mod_cast h0
        positivity
    refine ⟨by rw [eA]; exact pos p, by rw [eB]; exact pos q, ?_, ?_⟩
    · rw [eC]
      by_cases hz : boxSum k (fun x y => p x y * q x y) x y = 0
      · left; rw [hz]; simp
      · right; exact big _ (Int.one_le_abs hz)
    · have := boxSum_cs k p q x y
      have hq : (boxSum k (fun x y => p x y * q x y) x y : ℚ) * boxSum k (fun x y => p x y * q x y) x y ≤
        (boxSum k (fun x y => p x y * p x y) x y : ℚ) * boxSum k (fun x y => q x y * q x y) x y := by exact_mod_cast this
      rw [eA, eB, eC]
      have e : ∀ a b : ℚ, a / 64 / (2 * k + 1) ^ 2 * (b / 64 / (2 * k + 1) ^ 2) =
          a * b / (64 * (2 * k + 1) ^ 2) ^ 2 := by
        intro a b
        field_simp
      rw [e, e]
      exact div_le_div_of_nonneg_right hq (by positivity)
  · have eA : A = 0 := if_neg hi
    have eB : B = 0 := if_neg hi
    have eC : C = 0 := if_neg hi
    rw [eA, eB, eC]
    simp

theorem meas_near {k : Nat} (hk : k ≤ 4999) (d : List UInt8) (x y : Nat) :
    |measW w h k d x y - cornerW w h k d x y| ≤ 1 / 2 ^ 30 ∧ |measQ w h k d x y - cornerQ w h k d x y| ≤ 1 / 2 ^ 40 := by
  obtain ⟨h1, h2, h3, h4⟩ := tensor_facts (w := w) (h := h) hk (slopeX w h d) (slopeY w h d) x y
  have sx := slopeX_abs w h d
  have hAu := tensor_abs (w := w) (h := h) (k := k) (fun x y => abs_mul_1020 (sx x y) (sx x y)) x y
  have lo : (1 : ℚ) / 2 ^ 40 ≤ 15 / 10 ^ 11 := by norm_num
  refine measure_near (h1.imp_right lo.trans) (h2.imp_right lo.trans) (h3.imp_right lo.trans) h4
    ((le_abs_self _).trans hAu) ?_
  rcases h1 with e | e
  · rcases h2 with e' | e'
    · left; rw [e, e']; norm_num
    · right; rw [e]; linarith
  · right
    rcases h2 with e' | e'
    · rw [e']; linarith
    · have : (0 : ℚ) ≤ 15 / 10 ^ 11 := by norm_num
      linarith

theorem foerHalf_ok {σ : ℚ} (hσ : |σ| ≤ 700000000) :
    foerHalf (.fin σ) = .ok (max 1 ((trunc (Fmt.b64.rnd (3 * σ))).toNat / 2)) := by
  have h3 : |3 * σ| ≤ 2100000000 := by rw [abs_mul]; norm_num; linarith
  have hb : |Fmt.b64.rnd (3 * σ)| ≤ 2100000000 :=
    rnd_abs_le _ h3 (by have := rnd64_int (m := 2100000000) (by norm_num); exact_mod_cast this)
  have e : Dbl.mul Fmt.b64 (.fin 3) (.fin σ) = .fin (Fmt.b64.rnd (3 * σ)) := by
    show Fmt.b64.lift (3 * σ) = _
    exact lift64 (k := 40) (by norm_num) (h3.trans (by norm_num))
  unfold foerHalf
  rw [e]
  show (castI32 (Fmt.b64.rnd (3 * σ)) >>= _) = _
  rw [castI32_ok (hb.trans (by norm_num)), ok_bind]
  generalize trunc (Fmt.b64.rnd (3 * σ)) = z
  unfold orOne
  simp only []
  refine congrArg _ ?_
  split_ifs <;> omega

end

end FlatCV
