/-
The Gaussian blur as a whole.
-/
import Verif.Lemmas.BlurPass

namespace FlatCV

open Model Finset

/-- `(uint32_t)(2 * radius + 1)`. -/
theorem kernel_size_ok {r : ℚ} {R : ℕ} (hR : ⌊r⌋ = (R : ℤ)) (h0 : 0 ≤ r) (h2 : r ≤ 1000) :
    ∃ ks, (Dbl.add Fmt.b64 (Dbl.mul Fmt.b64 (.fin 2) (.fin r)) (.fin 1)).toU32 = .ok ks ∧
      2 * R + 1 ≤ ks ∧ ks ≤ 2001 := by
  have hfl := Int.floor_le r
  rw [hR] at hfl
  have hfl2 : R ≤ 1000 := by
    have : ((R : ℤ) : ℚ) ≤ ((1000 : ℤ) : ℚ) := by push_cast at hfl ⊢; linarith
    have : (R : ℤ) ≤ 1000 := by exact_mod_cast this
    omega
  have e1 : Fmt.b64.lift (2 * r) = .fin (Fmt.b64.rnd (2 * r)) := by
    apply lift64 (k := 20) (by norm_num)
    rw [abs_of_nonneg (by linarith)]
    norm_num; linarith
  set z := Fmt.b64.rnd (2 * r) with hz
  have hz1 : ((2 * R : ℤ) : ℚ) ≤ z := by
    refine le_rnd _ ?_ (rnd64_int ?_)
    · push_cast at hfl ⊢; linarith
    · rw [abs_le]; omega
  have hz2 : z ≤ ((2000 : ℤ) : ℚ) := rnd_le _ (by push_cast; linarith) (rnd64_int (by norm_num))
  have hz0 : 0 ≤ z := rnd_nonneg _ (by linarith)
  have e2 : Fmt.b64.lift (z + 1) = .fin (Fmt.b64.rnd (z + 1)) := by
    apply lift64 (k := 20) (by norm_num)
    rw [abs_of_nonneg (by linarith)]
    push_cast at hz2
    norm_num; linarith
  set y := Fmt.b64.rnd (z + 1) with hy
  have hy1 : ((2 * R + 1 : ℤ) : ℚ) ≤ y := by
    refine le_rnd _ ?_ (rnd64_int ?_)
    · push_cast at hz1 ⊢; linarith
    · rw [abs_le]; omega
  have hy2 : y ≤ ((2001 : ℤ) : ℚ) :=
    rnd_le _ (by push_cast at hz2 ⊢; linarith) (rnd64_int (by norm_num))
  have hy0 : 0 ≤ y := rnd_nonneg _ (by linarith)
  have f1 : (2 * R + 1 : ℤ) ≤ ⌊y⌋ := Int.le_floor.2 hy1
  have f2 : ⌊y⌋ ≤ 2001 := by
    have := Int.floor_le y
    have h3 : (⌊y⌋ : ℚ) ≤ ((2001 : ℤ) : ℚ) := by linarith
    exact_mod_cast h3
  refine ⟨⌊y⌋.toNat, ?_, by omega, by omega⟩
  simp only [Dbl.mul, e1, Dbl.add, e2, Dbl.toU32, castU32]
  rw [castInt_ok (by rw [trunc_nonneg hy0]; omega) (by rw [trunc_nonneg hy0]; omega), trunc_nonneg hy0]
  rfl

/-- The kernel block after the loop at conversion.c:402-405. -/
theorem blurKernel_ok {ex : ℚ → ℚ} (hex : ExpOk ex) {r : ℚ} {R : ℕ} (hrep : Fmt.b64.Rep r)
    (hR : ⌊r⌋ = (R : ℤ)) (h1 : 0 < r) (hv : ¬ SigmaVanishes r) (h2 : r ≤ 1000) {ks : ℕ} (hks : 2 * R + 1 ≤ ks)
    (hks2 : ks ≤ 2001) :
    ∃ (ker : Cells Dbl) (s : ℚ) (K : ℕ → ℚ), 0 < s ∧ KerCells ker R K ∧
      (∀ j, j ≤ 2 * R → KerOk r s (codeOffset r (j - R)) (K j)) ∧
      blurKernel ex (.fin r) ks (List.replicate ks none) = .ok ker := by
  have h0 : 0 ≤ r := h1.le
  obtain ⟨t, s, e, ht, hs, hs2, htb⟩ := blurSigma_ok h1 hv h2
  have hs0 : 0 < s := lt_of_lt_of_le (by positivity) hs
  have hall : ∀ j, j ≤ 2001 → ∃ v, blurWeight ex (.fin r) (.fin t) (.fin s) j = .ok v :=
    fun j hj => blurWeight_total ex h0 h2 ht.ne' hs0.ne' hj
  have hused : ∀ j, j ≤ 2 * R → ∃ K, blurWeight ex (.fin r) (.fin t) (.fin s) j = .ok (.fin K) ∧
      KerOk r s (codeOffset r (j - ⌊r⌋)) K :=
    fun j hj => blurWeight_used hex hrep h0 h2 ht hs hs2 htb (by omega)
  have : Nonempty Dbl := ⟨.nan⟩
  choose! V hV using hall
  choose! K hK1 hK2 using hused
  have hlen : ((List.range ks).map V).length = ks := by simp
  have := Filled.loop (out := (List.range ks).map V) (W := fun _ => False) (n := ks)
    (s := List.replicate ks none)
    (body := fun i ker => do
      let w ← blurWeight ex (.fin r) (.fin t) (.fin s) i
      wr ker i w) (fun i k => k = i) (Filled.start' _ hlen.symm) (by
      intro i hi W c hc
      simp only [hV i (by omega), ok_bind]
      exact hc.wr (by simp [hi]))
  obtain ⟨c, ec, hc⟩ := this
  have hd := hc.done (by
    intro k hk
    rw [hlen] at hk
    exact .inr ⟨k, hk, rfl⟩)
  refine ⟨c, s, K, hs0, ?_, ?_, ?_⟩
  · intro j hj
    rw [hd]
    apply rd_ok
    have : V j = .fin (K j) := by
      have h3 := hV j (by omega)
      rw [hK1 j hj] at h3
      injection h3 with h4
      exact h4.symm
    simp [show j < ks by omega, this]
  · intro j hj
    have := hK2 j hj
    rwa [hR] at this
  · unfold blurKernel
    rw [e]
    simp only [ok_bind]
    rw [forU32_eq (by omega)]
    exact ec

/-- From exact sums with the code's weights to means with Gaussian weights. -/
theorem PixVal.near {r s : ℚ} {R n i : ℕ} {K : ℕ → ℚ} (hs : 0 < s)
    (hK : ∀ j, j ≤ 2 * R → KerOk r s (codeOffset r (j - R)) (K j)) (hi : i < n)
    {v : ℕ → ℕ → UInt8} {b : ℕ → UInt8} (h : PixVal K R n i v b) {c : ℕ} (hc : c < 3) :
    NearBelow (winMean (fun k => gauss r (codeOffset r k)) R n (fun i' => ((v i' c).toNat : ℝ)) i) (b c) := by
  obtain ⟨l, u⟩ := h c hc
  have hsR : (0 : ℝ) < (s : ℝ) := by exact_mod_cast hs
  have hm := mean_close (N := 2 * R + 1) (p := InWin R n i) (k := fun j => (K j : ℝ))
    (g := fun j => gauss r (codeOffset r (j - R))) (v := fun j => ((v (i + j - R) c).toNat : ℝ)) hsR
    (fun j _ => Real.exp_pos _) (fun j hj => (hK j (by omega)).glo) (fun j hj => (hK j (by omega)).ghi)
    (fun j => Nat.cast_nonneg _) (fun j => by
      have h2 := (v (i + j - R) c).toNat_lt
      have : (v (i + j - R) c).toNat ≤ 255 := by omega
      exact_mod_cast this) (m := R) (by omega) (by unfold InWin; omega)
  have e1 : ((tapSum R n i (fun j => K j * (v (i + j - R) c).toNat) (2 * R + 1) / tapSum R n i K (2 * R + 1) : ℚ) : ℝ) =
      (∑ j ∈ range (2 * R + 1), if InWin R n i j then (K j : ℝ) * ((v (i + j - R) c).toNat : ℝ) else 0) /
        (∑ j ∈ range (2 * R + 1), if InWin R n i j then (K j : ℝ) else 0) := by
    unfold tapSum
    rw [Rat.cast_div, Rat.cast_sum, Rat.cast_sum]
    simp only [apply_ite (Rat.cast (K := ℝ)), Rat.cast_mul, Rat.cast_zero, Rat.cast_natCast]
  have l' := (Rat.cast_lt (K := ℝ)).2 l
  have u' := (Rat.cast_le (K := ℝ)).2 u
  rw [Rat.cast_add, Rat.cast_sub, e1] at l'
  rw [Rat.cast_sub, Rat.cast_add, e1] at u'
  push_cast at l' u'
  rw [abs_le] at hm
  unfold NearBelow winMean
  unfold InWin at hm l' u'
  constructor
  · linarith [hm.1, hm.2]
  · linarith [hm.1, hm.2]

/-- The result of the blur, for every heap. -/
theorem blur_run (P : Plat) {ex : ℚ → ℚ} (hex : ExpOk ex) {w h : ℕ} {d : List UInt8}
    (im : Img P w h 4 d) (hsz : w * h * 4 < 4294967296) {r : ℚ} (hrep : Fmt.b64.Rep r)
    (h1 : 0 < r) (hv : ¬ SigmaVanishes r) (h2 : r ≤ 1000) :
    ∃ out, Yields (fcv_apply_gaussian_blur P ex w h (.fin r) (some d)) out ∧
      Averaged (fun k => gauss r (codeOffset r k)) ⌊r⌋.toNat w h d out := by
  have hr : 0 < r := h1
  obtain ⟨R, hR⟩ : ∃ R : ℕ, ⌊r⌋ = (R : ℤ) := ⟨⌊r⌋.toNat, by
    have := Int.floor_nonneg.2 hr.le
    omega⟩
  have hw := im.w_pos
  have hh := im.h_pos
  have hd := im.len
  have hs4 : w * h * 4 ≤ P.szMax := by rw [← hd]; exact im.size
  obtain ⟨ks, eks, hks, hks2⟩ := kernel_size_ok hR hr.le h2
  obtain ⟨ker, s, K, hs, hker, hK, eker⟩ := blurKernel_ok hex hrep hR h1 hv h2 hks hks2
  have hKb : ∀ j, j ≤ 2 * R → 1 / 262144 ≤ K j ∧ K j ≤ 2 ^ 75 := fun j hj => ⟨(hK j hj).lo, (hK j hj).hi⟩
  obtain ⟨f1, p1, e1⟩ := blurRows_ok hw hh hd hsz hR hr.le h2 hKb hker
  set mid := mkImg w h 4 (fun x y c => if c < 3 then f1 x y c else 255) with hmid
  have hml : mid.length = w * h * 4 := mkImg_length _ _ _ _
  obtain ⟨f2, p2, e2⟩ := blurCols_ok hw hh hml hsz hR hr.le h2 hKb hker
  set out := mkImg w h 4 (fun x y c => if c < 3 then f2 x y c else 255) with hout
  have hol : out.length = w * h * 4 := mkImg_length _ _ _ _
  refine ⟨out, ?_, mid, hml, hol, ?_⟩
  · intro hp
    have g1 : ¬ w > P.szMax / h := P.guard_of_mul_le hh (by omega)
    have g2 : P.sz (w * h) = w * h := P.sz_eq' (by omega)
    have g3 : ¬ w * h > P.szMax / 4 := by omega
    have g4 : P.sz (w * h * 4) = w * h * 4 := P.sz_eq' hs4
    have z1 : ¬ (w = 0 ∨ h = 0) := by omega
    unfold fcv_apply_gaussian_blur
    simp only [z1, if_false, not_lt.2 hr.le, g1, g2, g3, g4, hr.ne', gt_iff_lt, not_lt.2 h2]
    have e1' := e1 (List.replicate (w * h * 4) none) (by simp)
    have e2' := e2 (mid.map some) (by rw [List.length_map, hml])
    by_cases f0 : hp.fails hp.next
    · simp [Returns, HOk, hm_bind, malloc, f0, hm_pure, OutOfMemory]
      exact ⟨hp.next, le_refl _, le_refl _, f0⟩
    · by_cases f1 : hp.fails (hp.next + 1)
      · simp [Returns, HOk, hm_bind, malloc, f0, f1, use, eks, free, hm_pure, OutOfMemory, Except.map]
        exact ⟨by omega, hp.next + 1, by omega, by omega, f1⟩
      · by_cases f2 : hp.fails (hp.next + 2)
        · simp [Returns, HOk, hm_bind, malloc, f0, f1, f2, use, eks, eker, e1', free, hm_pure, OutOfMemory, Except.map]
          exact ⟨by omega, hp.next + 2, by omega, by omega, f2⟩
        · simp [Returns, HOk, hm_bind, malloc, f0, f1, f2, use, eks, eker, e1', e2', free, hm_pure, FreshResult, Except.map]
          omega
  · intro x hx y hy
    refine ⟨fun c hc => ⟨?_, ?_⟩, ?_⟩
    · have := (p1 x hx y hy).near hs hK hx hc
      rw [hmid, px_mkImg hx hy (by omega), if_pos hc, show ⌊r⌋.toNat = R by omega]
      exact this
    · have := (p2 x hx y hy).near hs hK hy hc
      rw [hout, px_mkImg hx hy (by omega), if_pos hc, show ⌊r⌋.toNat = R by omega]
      exact this
    · rw [hout, px_mkImg hx hy (by omega)]
      simp

end FlatCV
