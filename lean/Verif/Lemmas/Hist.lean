import Verif.Lemmas.Gray

namespace FlatCV
open Model Spec

@[simp] theorem countP_zero (p : Nat → Bool) : countP 0 p = 0 := rfl

theorem countP_succ (n : Nat) (p : Nat → Bool) :
    countP (n + 1) p = countP n p + if p n then 1 else 0 := by
  unfold countP
  rw [List.range_succ, List.filter_append, List.length_append]
  by_cases h : p n <;> simp [h]

theorem countP_le (n : Nat) (p : Nat → Bool) : countP n p ≤ n := by
  have := List.length_filter_le p (List.range n)
  simpa [countP] using this

theorem countP_congr {n : Nat} {p q : Nat → Bool} (h : ∀ i, i < n → p i = q i) :
    countP n p = countP n q := by
  induction n with
  | zero => rfl
  | succ n ih =>
    rw [countP_succ, countP_succ, ih fun i hi => h i (by omega), h n (by omega)]

theorem countP_add {n : Nat} {p q r : Nat → Bool}
    (h : ∀ i, i < n → (if r i then 1 else 0) = (if p i then 1 else 0) + (if q i then 1 else (0 : Nat))) :
    countP n r = countP n p + countP n q := by
  induction n with
  | zero => rfl
  | succ n ih =>
    rw [countP_succ, countP_succ, countP_succ, ih fun i hi => h i (by omega), h n (by omega)]
    omega

theorem countP_true {n : Nat} {p : Nat → Bool} (h : ∀ i, i < n → p i = true) :
    countP n p = n := by
  induction n with
  | zero => rfl
  | succ n ih => rw [countP_succ, ih fun i hi => h i (by omega), h n (by omega)]; simp

theorem countP_false {n : Nat} {p : Nat → Bool} (h : ∀ i, i < n → p i = false) :
    countP n p = 0 := by
  induction n with
  | zero => rfl
  | succ n ih => rw [countP_succ, ih fun i hi => h i (by omega), h n (by omega)]; simp

theorem countP_mono {n : Nat} {p q : Nat → Bool} (h : ∀ i, i < n → p i = true → q i = true) :
    countP n p ≤ countP n q := by
  induction n with
  | zero => exact Nat.le_refl _
  | succ n ih =>
    have := ih fun i hi => h i (by omega)
    have := h n (by omega)
    rw [countP_succ, countP_succ]
    by_cases hp : p n <;> by_cases hq : q n <;> simp_all <;> omega

theorem countP_pos {n i : Nat} {p : Nat → Bool} (hi : i < n) (h : p i = true) :
    0 < countP n p := by
  induction n with
  | zero => omega
  | succ n ih =>
    rw [countP_succ]
    by_cases e : i = n
    · subst e; simp [h]
    · have := ih (by omega); omega

/-- The histogram of `n` values `v i`. -/
def histOf (n : Nat) (v : Nat → UInt8) : Cells Nat :=
  (List.range 256).map fun l => some (countP n fun i => (v i).toNat == l)

theorem histOf_get {n l : Nat} {v : Nat → UInt8} (hl : l < 256) :
    (histOf n v)[l]? = some (some (countP n fun i => (v i).toNat == l)) := by
  simp [histOf, hl]

theorem histogramLoop_ok {n : Nat} {v : Nat → UInt8} {vals : Cells UInt8}
    (hv : ∀ i, i < n → vals[i]? = some (some (v i))) (hn : n < 4294967296) :
    histogramLoop n vals = .ok (histOf n v) := by
  unfold histogramLoop
  rw [forU32_eq (by omega)]
  apply Ok.eq
  refine forN_ok (fun i s => s = histOf i v) ?_ ?_
  · unfold histOf
    apply List.ext_getElem?
    intro k
    by_cases hk : k < 256
    · rw [List.getElem?_replicate, if_pos hk, List.getElem?_map, List.getElem?_range hk]
      rfl
    · rw [List.getElem?_eq_none (by rw [List.length_replicate]; omega),
        List.getElem?_eq_none (by rw [List.length_map, List.length_range]; omega)]
  · rintro i hi s rfl
    have hlt := (v i).toNat_lt
    rw [rd_ok (hv i hi)]
    simp only [ok_bind]
    rw [rd_ok (histOf_get hlt)]
    simp only [ok_bind]
    rw [wr_ok (by simpa [histOf] using hlt)]
    refine Ok.pure ?_
    apply List.ext_getElem?
    intro k
    by_cases hk : k < 256
    · rw [histOf_get hk, countP_succ, List.getElem?_set]
      have := countP_le i fun j => (v j).toNat == k
      by_cases e : (v i).toNat = k
      · subst e
        rw [u32_eq (by omega)]
        simp [histOf, hlt]
      · simp [e, histOf_get hk]
    · rw [List.getElem?_eq_none (by simp [histOf]; omega),
        List.getElem?_eq_none (by simp [histOf]; omega)]

theorem findMin_ok {n : Nat} {v : Nat → UInt8} (hn : n < 4294967296) (hpos : 0 < n) :
    Ok (findMin (histOf n v) (n / 64)) (IsLow n v) := by
  unfold findMin
  refine Ok.bind (P := fun r => IsLow n v r.2) ?_ (fun r hr => Ok.pure' hr)
  refine (forBreak_ok
    (fun i (s : Nat × Nat) => s.1 = countP n (fun j => (v j).toNat < i) ∧
      ∀ l, l < i → countP n (fun j => (v j).toNat ≤ l) ≤ n / 64)
    (fun s => IsLow n v s.2) ?_ ?_).mono ?_
  · exact ⟨(countP_false (by simp)).symm, fun l hl => by omega⟩
  · rintro i _ hi ⟨c, m⟩ ⟨h1, h2⟩
    simp only at h1 ⊢
    rw [rd_ok (histOf_get (by omega))]
    simp only [ok_bind]
    have hadd : countP n (fun j => (v j).toNat ≤ i)
        = countP n (fun j => (v j).toNat < i) + countP n (fun j => (v j).toNat == i) := by
      apply countP_add
      intro j _
      simp only [decide_eq_true_eq, beq_iff_eq]
      split <;> split <;> split <;> omega
    have hle := countP_le n (fun j => (v j).toNat ≤ i)
    rw [u32_eq (by omega), h1, ← hadd]
    by_cases hc : countP n (fun j => (v j).toNat ≤ i) > n / 64
    · rw [if_pos hc]
      exact Ok.pure' (by simpa using ⟨by omega, hc, h2⟩)
    · rw [if_neg hc]
      refine Ok.pure' ?_
      simp only [Bool.false_eq_true, if_false]
      refine ⟨countP_congr fun j _ => by simp; omega, fun l hl => ?_⟩
      by_cases e : l = i
      · subst e; omega
      · exact h2 l (by omega)
  · rintro s (hs | ⟨h1, h2⟩)
    · exact hs
    · exfalso
      have := h2 255 (by omega)
      rw [countP_true (fun j _ => by have := (v j).toNat_lt; simp; omega)] at this
      omega

theorem findMax_ok {n : Nat} {v : Nat → UInt8} (hn : n < 4294967296) (hpos : 0 < n) :
    Ok (findMax (histOf n v) (n / 64)) (IsHigh n v) := by
  unfold findMax
  refine Ok.bind (P := fun r => IsHigh n v r.2) ?_ (fun r hr => Ok.pure' hr)
  refine (forBreak_ok
    (fun i (s : Nat × Nat) => s.1 = countP n (fun j => 255 - i < (v j).toNat ∨ i = 256) ∧
      ∀ l, 255 < l + i → countP n (fun j => l ≤ (v j).toNat) ≤ n / 64)
    (fun s => IsHigh n v s.2) ?_ ?_).mono ?_
  · refine ⟨(countP_false fun j _ => ?_).symm, fun l hl => ?_⟩
    · have := (v j).toNat_lt; simp; omega
    · rw [countP_false fun j _ => by have := (v j).toNat_lt; simp; omega]; omega
  · rintro i _ hi ⟨c, m⟩ ⟨h1, h2⟩
    simp only at h1 ⊢
    rw [rd_ok (histOf_get (by omega))]
    simp only [ok_bind]
    have hadd : countP n (fun j => 255 - i ≤ (v j).toNat)
        = countP n (fun j => 255 - i < (v j).toNat ∨ i = 256)
          + countP n (fun j => (v j).toNat == 255 - i) := by
      apply countP_add
      intro j _
      simp only [decide_eq_true_eq, beq_iff_eq]
      split <;> split <;> split <;> omega
    have hle := countP_le n (fun j => 255 - i ≤ (v j).toNat)
    rw [u32_eq (by omega), h1, ← hadd]
    by_cases hc : countP n (fun j => 255 - i ≤ (v j).toNat) > n / 64
    · rw [if_pos hc]
      refine Ok.pure' ?_
      simp only [if_true]
      exact ⟨by omega, hc, fun l hl => h2 l (by omega)⟩
    · rw [if_neg hc]
      refine Ok.pure' ?_
      simp only [Bool.false_eq_true, if_false]
      refine ⟨countP_congr fun j _ => decide_eq_decide.2 (by omega), fun l hl => ?_⟩
      by_cases e : l = 255 - i
      · subst e; omega
      · exact h2 l (by omega)
  · rintro s (hs | ⟨h1, h2⟩)
    · exact hs
    · exfalso
      have := h2 0 (by omega)
      rw [countP_true (fun j _ => by simp)] at this
      omega

/-- The dark quantile does not exceed the bright one. -/
theorem low_le_high {n low high : Nat} {v : Nat → UInt8} (hl : IsLow n v low)
    (hh : IsHigh n v high) (hpos : 0 < n) : low ≤ high := by
  apply Decidable.byContradiction
  intro hc
  have h1 := hl.2.2 high (by omega)
  have h2 := hh.2.2 (high + 1) (by omega)
  have : countP n (fun _ => true)
      = countP n (fun i => (v i).toNat ≤ high) + countP n (fun i => high + 1 ≤ (v i).toNat) := by
    apply countP_add
    intro j _
    simp only [decide_eq_true_eq, if_true]
    split <;> split <;> omega
  rw [countP_true (fun _ _ => rfl)] at this
  omega

theorem stretchByte_eq {low high : Nat} (hl : low ≤ high) (hh : high < 256) (g : UInt8) :
    stretchByte low high g = .ok (Spec.stretch low high g) := by
  unfold stretchByte Spec.stretch
  have hr : (high + 256 - low) % 256 = high - low := by omega
  simp only [hr]
  by_cases e : low = high
  · subst e; simp; rfl
  · have e' : ¬ high - low = 0 := by omega
    simp only [e, e', if_false]
    by_cases h1 : g.toNat < low
    · simp only [h1, if_true]; rfl
    · simp only [h1, if_false]
      by_cases h2 : high < g.toNat
      · simp only [h2, if_true]; rfl
      · simp only [h2, if_false]; rfl

end FlatCV
