/-
Smart binarisation: the radius and the composition of the steps.
-/
import Verif.Model.BwSmart
import Verif.Spec.BwSmart
import Verif.Lemmas.SobelNum
import Verif.Lemmas.BlurCall
import Verif.Props.Blur

namespace FlatCV
open Model Spec Props

theorem highFreqVal_eq (g b : UInt8) : highFreqVal g b = contrast g b := by
  have h1 := g.toNat_lt
  have h2 := b.toNat_lt
  unfold highFreqVal contrast u8OfInt
  simp only []
  split_ifs with c1 c2
  · rw [show 127 + g.toNat - b.toNat = 0 by omega]
    rfl
  · rw [show min 255 (127 + g.toNat - b.toNat) = 255 by omega]
    rfl
  · rw [show (127 + (g.toNat : Int) - b.toNat) % 256 = ((127 + g.toNat - b.toNat : Nat) : Int) by omega,
      Int.toNat_natCast, show min 255 (127 + g.toNat - b.toNat) = 127 + g.toNat - b.toNat by omega]

theorem highFreq_ok {n : Nat} (hn : n * 4 < 4294967296) {v : Nat → UInt8} {B : List UInt8}
    (hB : B.length = n * 4) :
    highFreq n (grayRGBA n v) (B.map some) (List.replicate (n * 4) none) =
      .ok ((grayRGBA n fun i => contrast (v i) (px1 4 B i 0)).map some) := by
  have main : Ok (highFreq n (grayRGBA n v) (B.map some) (List.replicate (n * 4) none))
      (fun c => c = (grayRGBA n fun i => contrast (v i) (px1 4 B i 0)).map some) := by
    unfold highFreq
    rw [forU32_eq (by omega)]
    refine (Filled.loop (out := grayRGBA n fun i => contrast (v i) (px1 4 B i 0))
      (W := fun _ => False) (fun i k => ∃ c, c < 4 ∧ k = i * 4 + c)
      ⟨by simp, fun _ _ hf => hf.elim⟩ ?_).mono ?_
    · intro i hi V t ht
      have e1 : u32 (i * 4) = i * 4 := u32_eq (by omega)
      have e2 : u32 (i * 4 + 1) = i * 4 + 1 := u32_eq (by omega)
      have e3 : u32 (i * 4 + 2) = i * 4 + 2 := u32_eq (by omega)
      have e4 : u32 (i * 4 + 3) = i * 4 + 3 := u32_eq (by omega)
      simp only [e1, e2, e3, e4]
      have rg : rdIn (grayRGBA n v) (i * 4) = .ok (v i) := by
        have := mkPx_getElem? (n := n) (ch := 4) (f := fun i c => if c < 3 then v i else 255) hi
          (show 0 < 4 by omega)
        exact rdIn_ok (by simpa [grayRGBA] using this)
      have rb : rd (B.map some) (i * 4) = .ok (px1 4 B i 0) := by
        have := getElem?_px1 (n := n) (ch := 4) (d := B) hB hi (show 0 < 4 by omega)
        unfold rd
        rw [List.getElem?_map]
        simp only [Nat.add_zero] at this
        rw [this]
        rfl
      rw [rg, ok_bind, rb, ok_bind, highFreqVal_eq]
      have ho : ∀ c, c < 4 → (grayRGBA n fun i => contrast (v i) (px1 4 B i 0))[i * 4 + c]? =
          some (if c < 3 then contrast (v i) (px1 4 B i 0) else 255) := by
        intro c hc
        unfold grayRGBA
        exact mkPx_getElem? hi hc
      refine Ok.bind (ht.wr (by simpa using ho 0 (by omega))) fun t1 h1 => ?_
      refine Ok.bind (h1.wr (by simpa using ho 1 (by omega))) fun t2 h2 => ?_
      refine Ok.bind (h2.wr (by simpa using ho 2 (by omega))) fun t3 h3 => ?_
      refine (h3.wr (by simpa using ho 3 (by omega))).mono fun t4 h4 => h4.mono ?_
      rintro k _ (h | ⟨c, hc, rfl⟩)
      · exact Or.inl (Or.inl (Or.inl (Or.inl h)))
      · rcases (show c = 0 ∨ c = 1 ∨ c = 2 ∨ c = 3 by omega) with rfl | rfl | rfl | rfl
        · exact Or.inl (Or.inl (Or.inl (Or.inr rfl)))
        · exact Or.inl (Or.inl (Or.inr rfl))
        · exact Or.inl (Or.inr rfl)
        · exact Or.inr rfl
    · intro c hc
      refine hc.done fun k hk => Or.inr ?_
      simp at hk
      exact ⟨k / 4, by omega, k % 4, by omega, by omega⟩
  obtain ⟨r, e, er⟩ := main
  rw [e, er]

/-! ### The radius -/

/-- The radius for an image of `n` pixels. -/
def radiusOf (n : Nat) : ℚ := Fmt.b64.rnd (rootOf n * tenth)

theorem bwRadius_eq {w h : Nat} (hn : w * h ≤ 2 ^ 32) : bwRadius w h = .ok (radiusOf (w * h)) := by
  unfold bwRadius radiusOf rootOf
  have q1 : ((w : ℚ) * h) ≤ 2 ^ 32 := by exact_mod_cast hn
  have q0 : (0 : ℚ) ≤ (w : ℚ) * h := by positivity
  have e := rnd64_int (m := ((w * h : ℕ) : ℤ)) (by rw [Nat.abs_cast]; omega)
  push_cast at e
  rw [f64_ok (by rw [abs_of_nonneg q0]; exact q1.trans (by norm_num)), ok_bind, e, f64sqrt_ok q0, ok_bind]
  have r0 := rnd_nonneg Fmt.b64 (sqrtMid_nonneg ((w : ℚ) * h))
  have r1 := f64sqrt_le (r := ((65536 : ℤ) : ℚ)) (s := (w : ℚ) * h) (rep64_int (by norm_num)) (by norm_num) q0
    (by push_cast; linarith)
  push_cast at r1
  rw [f64_ok]
  · push_cast
    rfl
  · have t0 : (0 : ℚ) ≤ tenth := by unfold tenth; norm_num
    have t1 : tenth ≤ 1 := by unfold tenth; norm_num
    rw [abs_of_nonneg (by positivity)]
    have : Fmt.b64.rnd (sqrtMid ((w : ℚ) * h)) * tenth ≤ 65536 * 1 := mul_le_mul r1 t1 t0 (by norm_num)
    exact this.trans (by norm_num)

theorem tenth_pos : 0 < tenth := by unfold tenth; norm_num

theorem radiusOf_mono {n m : Nat} (h : n ≤ m) : radiusOf n ≤ radiusOf m :=
  rnd_mono _ (mul_le_mul_of_nonneg_right (rootOf_mono (by exact_mod_cast h) (by positivity)) tenth_pos.le)

/-- Up to 10^8 pixels the radius is at most 1000. -/
theorem radiusOf_le {n : Nat} (h : n ≤ 100000000) : radiusOf n ≤ 1000 := by
  refine (radiusOf_mono h).trans ?_
  have h1 : rootOf ((100000000 : ℕ) : ℤ) ≤ 10000 := by
    have := f64sqrt_le (r := ((10000 : ℤ) : ℚ)) (s := ((100000000 : ℤ) : ℚ)) (rep64_int (by norm_num)) (by norm_num)
      (by norm_num) (by norm_num)
    push_cast at this
    exact_mod_cast this
  have h2 : Fmt.b64.rnd (10000 * tenth) = 1000 := by decide +kernel
  rw [← h2]
  exact rnd_mono _ (mul_le_mul_of_nonneg_right h1 tenth_pos.le)

/-- From 10^8 + 1 pixels on it is larger. -/
theorem radiusOf_gt {n : Nat} (h : 100000000 < n) : 1000 < radiusOf n := by
  refine lt_of_lt_of_le ?_ (radiusOf_mono h)
  have h1 : (10000 + 1 / 65536 : ℚ) ≤ rootOf ((100000001 : ℕ) : ℤ) := by
    have := le_f64sqrt (r := (10000 + 1 / 65536 : ℚ)) (s := ((100000001 : ℤ) : ℚ))
      ⟨⟨655360001, -16, by decide, by decide, by norm_num⟩, by
        rw [abs_of_nonneg (by norm_num)]
        exact lt_max64 (by norm_num)⟩ (by norm_num) (by norm_num)
    exact_mod_cast this
  have h2 : 1000 < Fmt.b64.rnd ((10000 + 1 / 65536) * tenth) := by decide +kernel
  exact lt_of_lt_of_le h2 (rnd_mono _ (mul_le_mul_of_nonneg_right h1 tenth_pos.le))

theorem radiusOf_ge {n : Nat} (h : 0 < n) : 1 / 16 ≤ radiusOf n := by
  refine le_trans ?_ (radiusOf_mono (n := 1) h)
  have h1 : (1 : ℚ) ≤ rootOf ((1 : ℕ) : ℤ) := by
    have := le_f64sqrt (r := ((1 : ℤ) : ℚ)) (s := ((1 : ℤ) : ℚ)) (rep64_int (by norm_num)) (by norm_num) (by norm_num)
    exact_mod_cast this
  have h2 : 1 / 16 ≤ Fmt.b64.rnd (1 * tenth) := by decide +kernel
  exact h2.trans (rnd_mono _ (mul_le_mul_of_nonneg_right h1 tenth_pos.le))

theorem radiusOf_rep {n : Nat} (h : n ≤ 100000000) : Fmt.b64.Rep (radiusOf n) := by
  refine fl_rep Fmt.b64 (x := rootOf n * tenth) ?_
  have h0 := rootOf_nonneg n
  have h1 : rootOf n ≤ 10000 := by
    have := f64sqrt_le (r := ((10000 : ℤ) : ℚ)) (s := ((n : ℤ) : ℚ)) (rep64_int (by norm_num)) (by norm_num)
      (by positivity) (by
        have : (n : ℚ) ≤ 100000000 := by exact_mod_cast h
        push_cast
        linarith)
    push_cast at this
    exact this
  have t1 : tenth ≤ 1 := by unfold tenth; norm_num
  refine f64_ok ?_
  rw [abs_of_nonneg (mul_nonneg h0 tenth_pos.le)]
  have : rootOf n * tenth ≤ 10000 * 1 := mul_le_mul h1 t1 tenth_pos.le (by norm_num)
  exact this.trans (by norm_num)

/-- The computed root is close to the real root, for images of up to 10^8 pixels. -/
theorem rootOf_near' {n : Nat} (hn : n ≤ 100000000) :
    |(rootOf n : ℝ) - Real.sqrt n| ≤ 1 / 2 ^ 38 := by
  obtain ⟨R, a1, a2⟩ : ∃ R : ℕ, R * R ≤ n * 2 ^ 76 ∧ n * 2 ^ 76 < (R + 1) * (R + 1) :=
    ⟨Nat.sqrt (n * 2 ^ 76), Nat.sqrt_le _, Nat.lt_succ_sqrt _⟩
  have a3 : R < 20000 * 2 ^ 38 := by
    by_contra hc
    have hc := Nat.not_lt.1 hc
    have := Nat.mul_le_mul hc hc
    omega
  have q1 : (R : ℚ) * R ≤ n * 2 ^ 76 := by exact_mod_cast a1
  have q2 : (n : ℚ) * 2 ^ 76 ≤ (R + 1) * (R + 1) := by exact_mod_cast a2.le
  have r1 : (R : ℝ) * R ≤ n * 2 ^ 76 := by exact_mod_cast a1
  have r2 : (n : ℝ) * 2 ^ 76 ≤ (R + 1) * (R + 1) := by exact_mod_cast a2.le
  have rep : ∀ m : ℤ, |m| ≤ 9007199254740992 → Fmt.b64.Rep ((m : ℚ) / 2 ^ 38) := by
    intro m h
    refine ⟨⟨m, -38, by decide, by exact_mod_cast h, ?_⟩, ?_⟩
    · rw [zpow_neg, div_eq_mul_inv]
      norm_cast
    · have h1 : |(m : ℚ)| ≤ 9007199254740992 := by exact_mod_cast h
      rw [abs_div, abs_of_pos (by positivity : (0 : ℚ) < 2 ^ 38)]
      refine lt_max64 ?_
      rw [div_le_iff₀ (by positivity)]
      norm_num
      linarith
  have b1 : (R : ℚ) / 2 ^ 38 ≤ rootOf n := by
    have := le_f64sqrt (r := ((R : ℤ) : ℚ) / 2 ^ 38) (s := ((n : ℤ) : ℚ))
      (rep _ (by rw [abs_of_nonneg (by omega)]; omega)) (by positivity) (by
        push_cast
        rw [div_mul_div_comm, div_le_iff₀ (by positivity)]
        linarith)
    push_cast at this
    exact this
  have b2 : rootOf n ≤ ((R : ℚ) + 1) / 2 ^ 38 := by
    have := f64sqrt_le (r := ((R + 1 : ℤ) : ℚ) / 2 ^ 38) (s := ((n : ℤ) : ℚ))
      (rep _ (by rw [abs_of_nonneg (by omega)]; omega)) (by positivity) (by positivity) (by
        push_cast
        rw [div_mul_div_comm, le_div_iff₀ (by positivity)]
        linarith)
    push_cast at this
    exact this
  have c1 : (R : ℝ) / 2 ^ 38 ≤ rootOf n := by
    have := (Rat.cast_le (K := ℝ)).2 b1
    push_cast at this
    exact this
  have c2 : (rootOf n : ℝ) ≤ ((R : ℝ) + 1) / 2 ^ 38 := by
    have := (Rat.cast_le (K := ℝ)).2 b2
    push_cast at this
    exact this
  have d1 : (R : ℝ) / 2 ^ 38 ≤ Real.sqrt n := by
    refine Real.le_sqrt_of_sq_le ?_
    rw [div_pow, div_le_iff₀ (by positivity), sq]
    linarith
  have d2 : Real.sqrt n ≤ ((R : ℝ) + 1) / 2 ^ 38 := by
    rw [Real.sqrt_le_left (by positivity), div_pow, le_div_iff₀ (by positivity), sq]
    linarith
  have e : ((R : ℝ) + 1) / 2 ^ 38 = R / 2 ^ 38 + 1 / 2 ^ 38 := by ring
  rw [abs_le]
  constructor <;> linarith

/-- The radius is a tenth of the square root of the number of pixels, up to rounding. -/
theorem radiusOf_near {n : Nat} (h : n ≤ 100000000) :
    |(radiusOf n : ℝ) - Real.sqrt n / 10| ≤ 1 / 2 ^ 40 := by
  have h1 := rootOf_near' h
  have h0 := rootOf_nonneg (n : ℤ)
  have h2 : rootOf n ≤ 10000 := by
    have := f64sqrt_le (r := ((10000 : ℤ) : ℚ)) (s := ((n : ℤ) : ℚ)) (rep64_int (by norm_num)) (by norm_num)
      (by positivity) (by
        have : (n : ℚ) ≤ 100000000 := by exact_mod_cast h
        push_cast
        linarith)
    push_cast at this
    exact this
  have t : tenth ≤ 1 / 10 + 1 / 2 ^ 56 ∧ 1 / 10 ≤ tenth := by unfold tenth; norm_num
  have e := rnd64_err_le (x := rootOf n * tenth) (B := 1024)
    (by rw [abs_of_nonneg (mul_nonneg h0 tenth_pos.le)]; nlinarith [t.1, t.2]) (by norm_num)
  have e' : |((radiusOf n - rootOf n * tenth : ℚ) : ℝ)| ≤ ((1024 / 2 ^ 53 + 1024 / 2 ^ 70 : ℚ) : ℝ) := by
    rw [← Rat.cast_abs]
    exact Rat.cast_le.2 e
  have t1 : ((tenth : ℚ) : ℝ) ≤ 1 / 10 + 1 / 2 ^ 56 := by
    have := (Rat.cast_le (K := ℝ)).2 t.1
    push_cast at this
    exact this
  have t2 : (1 / 10 : ℝ) ≤ (tenth : ℚ) := by
    have := (Rat.cast_le (K := ℝ)).2 t.2
    push_cast at this
    exact this
  have g2 : ((rootOf n : ℚ) : ℝ) ≤ 10000 := by
    have := (Rat.cast_le (K := ℝ)).2 h2
    push_cast at this
    exact this
  have g0 : (0 : ℝ) ≤ ((rootOf n : ℚ) : ℝ) := by exact_mod_cast h0
  push_cast at e' h1
  rw [abs_le] at *
  generalize ((rootOf n : ℚ) : ℝ) = R at *
  generalize ((tenth : ℚ) : ℝ) = T at *
  have m1 : R * T ≤ R / 10 + 10000 * (1 / 2 ^ 56) := by
    have : R * T ≤ R * (1 / 10 + 1 / 2 ^ 56) := mul_le_mul_of_nonneg_left t1 g0
    have : R * (1 / 2 ^ 56) ≤ 10000 * (1 / 2 ^ 56) := mul_le_mul_of_nonneg_right g2 (by positivity)
    linarith
  have m2 : R / 10 ≤ R * T := by
    have : R * (1 / 10) ≤ R * T := mul_le_mul_of_nonneg_left t2 g0
    linarith
  norm_num at *
  constructor <;> linarith [e'.1, e'.2, h1.1, h1.2]

section
variable {P : Plat} {ex : ℚ → ℚ} {w h : Nat} {d : List UInt8}

/-- The whole call, from what its steps return. -/
theorem bw_returns (im : Img P w h 4 d) (h30 : w * h * 4 < 4294967296) {r : ℚ}
    (hr : bwRadius w h = .ok r) {B : List UInt8} (hBl : B.length = w * h * 4)
    (hB : Yields (fcv_apply_gaussian_blur P ex w h (.fin r) (some (grayRGBA (w * h) (lumaAt d)))) B)
    {dbl : Bool} {out : List UInt8}
    (ho : Yields (fcv_otsu_threshold_rgba P w h dbl
      (some (grayRGBA (w * h) fun i => contrast (lumaAt d i) (px1 4 B i 0)))) out) :
    Yields (fcv_bw_smart P ex w h dbl (some d)) out := by
  intro hp
  have hw := im.w_pos
  have hh := im.h_pos
  have hs4 : w * h * 4 ≤ P.szMax := by rw [← im.len]; exact im.size
  have z : ¬ (w = 0 ∨ h = 0) := by omega
  have g1 : ¬ w > P.szMax / h := P.guard_of_mul_le hh (by omega)
  have g2 : P.sz (w * h) = w * h := P.sz_eq' (by omega)
  have g3 : ¬ w * h > P.szMax / 4 := by omega
  have g4 : P.sz (w * h * 4) = w * h * 4 := P.sz_eq' hs4
  unfold fcv_bw_smart
  simp only [z, if_false, g1, g2, g3, g4]
  have hg := grayscale_correct im (by omega) hp
  obtain ⟨rg, h1, eg, hg⟩ := hg
  unfold Returns HOk
  rw [hm_bind, eg]
  cases rg with
  | none => exact ⟨none, h1, rfl, hg⟩
  | some gb =>
    obtain ⟨⟨l1, f1, n1, n1'⟩, c1⟩ := hg
    have u1 : use [] (bwRadius w h) h1 = .ok (r, h1) := by simp [use, hr, Except.map]
    have u2 : use [gb.id] (asInput gb.cells) h1 = .ok (grayRGBA (w * h) (lumaAt d), h1) := by
      rw [c1, asInput_map_some]
      simp [use, l1, Except.map]
    obtain ⟨rb, h2, eb, hb⟩ := hB h1
    simp only [hm_bind, u1, u2, eb]
    cases rb with
    | none =>
      obtain ⟨l2, f2, n2, j, j1, j2, j3⟩ := hb
      have : free gb.id h2 = .ok ((), { h2 with live := h2.live.erase gb.id }) := by
        simp [free, l2, l1]
      simp only [hm_bind, this]
      refine ⟨none, _, rfl, ?_, ?_, ?_, j, by omega, j2, by rw [← f1]; exact j3⟩
      · simp [l2, l1]
      · simp [f2, f1]
      · simp only; omega
    | some bb =>
      obtain ⟨⟨l2, f2, n2, n2'⟩, c2⟩ := hb
      have hne : gb.id ≠ bb.id := by omega
      by_cases ff : h2.fails h2.next
      · simp [hm_bind, malloc, ff, free, l2, l1, hne, hm_pure, OutOfMemory, hne.symm]
        refine ⟨by rw [f2, f1], by omega, h2.next, by omega, by omega, ?_⟩
        rw [← f1, ← f2]
        exact ff
      · have hf := highFreq_ok (n := w * h) (by omega) (v := lumaAt d) hBl
        have hne3 : bb.id ≠ h2.next := by omega
        have hne4 : gb.id ≠ h2.next := by omega
        set H : Heap := ⟨h2.next + 1, h2.next :: hp.live, h2.fails⟩ with hH
        obtain ⟨r3, h3, e3, q3⟩ := ho H
        have m0 : malloc UInt8 (w * h * 4) h2 = .ok (some ⟨h2.next, List.replicate (w * h * 4) none⟩,
            ⟨h2.next + 1, h2.next :: bb.id :: gb.id :: hp.live, h2.fails⟩) := by
          simp [malloc, ff, l2, l1]
        have u3 : use [gb.id, bb.id, h2.next] (highFreq (w * h) (grayRGBA (w * h) (lumaAt d)) bb.cells
            (List.replicate (w * h * 4) none)) ⟨h2.next + 1, h2.next :: bb.id :: gb.id :: hp.live, h2.fails⟩ =
            .ok ((grayRGBA (w * h) fun i => contrast (lumaAt d i) (px1 4 B i 0)).map some,
              ⟨h2.next + 1, h2.next :: bb.id :: gb.id :: hp.live, h2.fails⟩) := by
          rw [c2, hf]
          simp [use, Except.map]
        have v1 : free gb.id ⟨h2.next + 1, h2.next :: bb.id :: gb.id :: hp.live, h2.fails⟩ =
            .ok ((), ⟨h2.next + 1, h2.next :: bb.id :: hp.live, h2.fails⟩) := by
          simp [free, hne, hne.symm, hne4, hne4.symm]
        have v2 : free bb.id ⟨h2.next + 1, h2.next :: bb.id :: hp.live, h2.fails⟩ = .ok ((), H) := by
          simp [free, hne3, hne3.symm, hH]
        have u4 : use [h2.next] (asInput ((grayRGBA (w * h) fun i => contrast (lumaAt d i) (px1 4 B i 0)).map some)) H =
            .ok (grayRGBA (w * h) fun i => contrast (lumaAt d i) (px1 4 B i 0), H) := by
          rw [asInput_map_some]
          simp [use, Except.map, hH]
        simp only [hm_bind, m0, u3, v1, v2, u4, e3]
        cases r3 with
        | none =>
          obtain ⟨l3, f3, n3, j, j1, j2, j3⟩ := q3
          have v3 : free h2.next h3 = .ok ((), { h3 with live := hp.live }) := by
            simp [free, l3, hH]
          simp only [v3]
          refine ⟨none, _, rfl, rfl, ?_, ?_, j, ?_, j2, ?_⟩
          · simp only [f3, hH, f2, f1]
          · simp only [hH] at n3 ⊢; omega
          · simp only [hH] at j1; omega
          · rw [← f1, ← f2]
            exact j3
        | some b3 =>
          obtain ⟨⟨l3, f3, n3, n3'⟩, c3⟩ := q3
          have hne5 : b3.id ≠ h2.next := by simp only [hH] at n3; omega
          have v3 : free h2.next h3 = .ok ((), { h3 with live := b3.id :: hp.live }) := by
            simp [free, l3, hH, hne5, hne5.symm]
          simp only [v3]
          refine ⟨some b3, _, rfl, ⟨rfl, ?_, ?_, n3'⟩, c3⟩
          · simp only [f3, hH, f2, f1]
          · simp only [hH] at n3; omega

/-- When the blur refuses the radius, NULL is returned and nothing stays allocated. -/
theorem bw_refused (im : Img P w h 4 d) (h30 : w * h ≤ 2 ^ 30) {r : ℚ} (hr : bwRadius w h = .ok r)
    (hr1 : 1000 < r) (dbl : Bool) (hp : Heap) :
    HOk (fcv_bw_smart P ex w h dbl (some d)) hp fun res h' =>
      res = none ∧ h'.live = hp.live ∧ h'.fails = hp.fails := by
  have hw := im.w_pos
  have hh := im.h_pos
  have z : ¬ (w = 0 ∨ h = 0) := by omega
  unfold fcv_bw_smart
  simp only [z, if_false]
  obtain ⟨rg, h1, eg, hg⟩ := grayscale_correct im h30 hp
  unfold HOk
  rw [hm_bind, eg]
  cases rg with
  | none => exact ⟨none, h1, rfl, rfl, hg.1, hg.2.1⟩
  | some gb =>
    obtain ⟨⟨l1, f1, n1, n1'⟩, c1⟩ := hg
    have u1 : use [] (bwRadius w h) h1 = .ok (r, h1) := by simp [use, hr, Except.map]
    have u2 : use [gb.id] (asInput gb.cells) h1 = .ok (grayRGBA (w * h) (lumaAt d), h1) := by
      rw [c1, asInput_map_some]
      simp [use, l1, Except.map]
    have eb : fcv_apply_gaussian_blur P ex w h (.fin r) (some (grayRGBA (w * h) (lumaAt d))) h1 =
        .ok (none, h1) := blur_bad_radius (P := P) h1 (by rintro q ⟨⟩; exact Or.inr hr1)
    have v1 : free gb.id h1 = .ok ((), { h1 with live := hp.live }) := by
      simp [free, l1]
    simp only [hm_bind, u1, u2, eb, v1]
    exact ⟨none, _, rfl, rfl, rfl, f1⟩

end

end FlatCV
