/-
The transform of a block in place.
-/
import Verif.Lemmas.JpegDct
import Verif.Lemmas.Mem

namespace FlatCV
open Model

/-- The list of `n` values given by a function. -/
def fnTab {α : Type} (n : ℕ) (g : ℕ → α) : List α := (List.range n).map g

theorem fnTab_length {α : Type} (n : ℕ) (g : ℕ → α) : (fnTab n g).length = n := by simp [fnTab]

theorem fnTab_get {α : Type} {n i : ℕ} (g : ℕ → α) (h : i < n) : (fnTab n g)[i]? = some (g i) := by simp [fnTab, h]

theorem fnTab_rd {α : Type} {n i : ℕ} (g : ℕ → α) (h : i < n) : rdIn (fnTab n g) i = .ok (g i) := rdIn_ok (fnTab_get g h)

theorem fnTab_ext {α : Type} {n : ℕ} {g g' : ℕ → α} (h : ∀ i < n, g i = g' i) : fnTab n g = fnTab n g' := by
  unfold fnTab
  apply List.map_congr_left
  intro i hi
  exact h i (List.mem_range.1 hi)

theorem fnTab_of {α : Type} (l : List α) (a : α) : l = fnTab l.length fun i => l.getD i a := by
  apply List.ext_getElem?
  intro i
  by_cases h : i < l.length
  · rw [fnTab_get _ h]
    simp [h]
  · rw [List.getElem?_eq_none (by omega), List.getElem?_eq_none (by rw [fnTab_length]; omega)]

/-- One value changed. -/
def upd {α : Type} (g : ℕ → α) (i : ℕ) (v : α) : ℕ → α := fun j => if j = i then v else g j

theorem fnTab_wr {α : Type} {n i : ℕ} (g : ℕ → α) (v : α) (h : i < n) : wrIn (fnTab n g) i v = .ok (fnTab n (upd g i v)) := by
  unfold wrIn
  rw [if_pos (by rw [fnTab_length]; exact h)]
  congr 1
  apply List.ext_getElem?
  intro j
  by_cases hj : j < n
  · rw [List.getElem?_set, fnTab_get _ hj, fnTab_get _ hj]
    by_cases e : i = j
    · subst e
      rw [if_pos rfl, if_pos (by rw [fnTab_length]; exact h)]
      simp [upd]
    · rw [if_neg e]
      simp [upd, Ne.symm e]
  · rw [List.getElem?_eq_none (by rw [List.length_set, fnTab_length]; omega), List.getElem?_eq_none (by rw [fnTab_length]; omega)]

/-- The eight values of `g` at `off`, `off + step`, … are replaced by their transform. -/
theorem dctAt_ok {n off step : ℕ} (g : ℕ → Dbl) (hs : step = 1 ∨ step = 8 ∨ step = 16) (hn : off + step * 7 < n) :
    ∃ g', dctAt (fnTab n g) off step = .ok (fnTab n g') ∧
      (∀ k < 8, g' (off + step * k) = (stbiw_jpg_DCT (octOf fun i => g (off + step * i))).get k) ∧
      ∀ j, (∀ k < 8, j ≠ off + step * k) → g' j = g j := by
  have h0 : step * 1 = step := Nat.mul_one _
  unfold dctAt
  rw [fnTab_rd _ (by omega), ok_bind, fnTab_rd _ (by omega), ok_bind, fnTab_rd _ (by omega), ok_bind, fnTab_rd _ (by omega), ok_bind,
    fnTab_rd _ (by omega), ok_bind, fnTab_rd _ (by omega), ok_bind, fnTab_rd _ (by omega), ok_bind, fnTab_rd _ (by omega), ok_bind]
  have e : (⟨g off, g (off + step), g (off + step * 2), g (off + step * 3), g (off + step * 4), g (off + step * 5), g (off + step * 6),
      g (off + step * 7)⟩ : Oct Dbl) = octOf fun i => g (off + step * i) := by
    simp [octOf]
  rw [e]
  generalize stbiw_jpg_DCT (octOf fun i => g (off + step * i)) = r
  dsimp only
  rw [fnTab_wr _ _ (by omega), ok_bind, fnTab_wr _ _ (by omega), ok_bind, fnTab_wr _ _ (by omega), ok_bind, fnTab_wr _ _ (by omega), ok_bind,
    fnTab_wr _ _ (by omega), ok_bind, fnTab_wr _ _ (by omega), ok_bind, fnTab_wr _ _ (by omega), ok_bind, fnTab_wr _ _ (by omega)]
  refine ⟨_, rfl, ?_, ?_⟩
  · intro k hk
    rcases hs with rfl | rfl | rfl <;>
    · match k, hk with
      | 0, _ | 1, _ | 2, _ | 3, _ | 4, _ | 5, _ | 6, _ | 7, _ => simp [upd, Oct.get]
  · intro j hj
    have k0 := hj 0 (by norm_num)
    have k1 := hj 1 (by norm_num)
    have k2 := hj 2 (by norm_num)
    have k3 := hj 3 (by norm_num)
    have k4 := hj 4 (by norm_num)
    have k5 := hj 5 (by norm_num)
    have k6 := hj 6 (by norm_num)
    have k7 := hj 7 (by norm_num)
    rw [Nat.mul_zero, Nat.add_zero] at k0
    rw [Nat.mul_one] at k1
    simp only [upd, if_neg k0, if_neg k1, if_neg k2, if_neg k3, if_neg k4, if_neg k5, if_neg k6, if_neg k7]

theorem dctRows_ok {n base stride : ℕ} (g : ℕ → Dbl) (hs : stride = 8 ∨ stride = 16) (hn : base + stride * 7 + 7 < n) :
    Ok (dctRows (fnTab n g) base stride) fun l => ∃ g', l = fnTab n g' ∧
      (∀ y < 8, ∀ x < 8, g' (base + y * stride + x) = (stbiw_jpg_DCT (octOf fun i => g (base + y * stride + i))).get x) ∧
      ∀ j, (∀ y < 8, ∀ x < 8, j ≠ base + y * stride + x) → g' j = g j := by
  unfold dctRows
  refine (forN_ok (fun r l => ∃ g', l = fnTab n g' ∧
      (∀ y < 8, ∀ x < 8, g' (base + y * stride + x) =
        if y < r then (stbiw_jpg_DCT (octOf fun i => g (base + y * stride + i))).get x else g (base + y * stride + x)) ∧
      ∀ j, (∀ y < 8, ∀ x < 8, j ≠ base + y * stride + x) → g' j = g j) ⟨g, rfl, by simp, by simp⟩ ?_).mono ?_
  · rintro r hr _ ⟨g1, rfl, h1, h2⟩
    have hb : base + r * stride + 1 * 7 < n := by rcases hs with rfl | rfl <;> omega
    obtain ⟨g2, e, h3, h4⟩ := dctAt_ok g1 (off := base + r * stride) (step := 1) (Or.inl rfl) hb
    refine Ok.of_eq e ⟨g2, rfl, ?_, ?_⟩
    · intro y hy x hx
      by_cases hyr : y = r
      · subst hyr
        rw [if_pos (by omega)]
        have := h3 x hx
        rw [Nat.one_mul] at this
        rw [this]
        congr 2
        unfold octOf
        simp only [Nat.one_mul]
        have k := fun i hi => h1 y hy i hi
        simp only [lt_irrefl, if_false] at k
        rw [k 0 (by norm_num), k 1 (by norm_num), k 2 (by norm_num), k 3 (by norm_num), k 4 (by norm_num), k 5 (by norm_num),
          k 6 (by norm_num), k 7 (by norm_num)]
      · rw [h4 _ (by rcases hs with rfl | rfl <;> omega), h1 y hy x hx]
        by_cases h : y < r
        · rw [if_pos h, if_pos (by omega)]
        · rw [if_neg h, if_neg (by omega)]
    · intro j hj
      rw [h4 j (fun k hk => by have := hj r hr k hk; omega), h2 j hj]
  · rintro l ⟨g', rfl, h1, h2⟩
    refine ⟨g', rfl, ?_, h2⟩
    intro y hy x hx
    rw [h1 y hy x hx, if_pos hy]

theorem dctCols_ok {n base stride : ℕ} (g : ℕ → Dbl) (hs : stride = 8 ∨ stride = 16) (hn : base + stride * 7 + 7 < n) :
    Ok (dctCols (fnTab n g) base stride) fun l => ∃ g', l = fnTab n g' ∧
      (∀ y < 8, ∀ x < 8, g' (base + y * stride + x) = (stbiw_jpg_DCT (octOf fun i => g (base + i * stride + x))).get y) ∧
      ∀ j, (∀ y < 8, ∀ x < 8, j ≠ base + y * stride + x) → g' j = g j := by
  unfold dctCols
  refine (forN_ok (fun r l => ∃ g', l = fnTab n g' ∧
      (∀ y < 8, ∀ x < 8, g' (base + y * stride + x) =
        if x < r then (stbiw_jpg_DCT (octOf fun i => g (base + i * stride + x))).get y else g (base + y * stride + x)) ∧
      ∀ j, (∀ y < 8, ∀ x < 8, j ≠ base + y * stride + x) → g' j = g j) ⟨g, rfl, by simp, by simp⟩ ?_).mono ?_
  · rintro r hr _ ⟨g1, rfl, h1, h2⟩
    have hb : base + r + stride * 7 < n := by rcases hs with rfl | rfl <;> omega
    obtain ⟨g2, e, h3, h4⟩ := dctAt_ok g1 (off := base + r) (step := stride) (Or.inr hs) hb
    refine Ok.of_eq e ⟨g2, rfl, ?_, ?_⟩
    · intro y hy x hx
      by_cases hxr : x = r
      · subst hxr
        rw [if_pos (by omega)]
        have := h3 y hy
        rw [show base + y * stride + x = base + x + stride * y by ring, this]
        congr 2
        unfold octOf
        have k := fun i hi => h1 i hi x hx
        simp only [lt_irrefl, if_false] at k
        have k' : ∀ i < 8, g1 (base + x + stride * i) = g (base + i * stride + x) := by
          intro i hi
          rw [← k i hi]
          congr 1
          ring
        dsimp only
        rw [k' 0 (by norm_num), k' 1 (by norm_num), k' 2 (by norm_num), k' 3 (by norm_num), k' 4 (by norm_num), k' 5 (by norm_num),
          k' 6 (by norm_num), k' 7 (by norm_num)]
      · rw [h4 _ (by rcases hs with rfl | rfl <;> omega), h1 y hy x hx]
        by_cases h : x < r
        · rw [if_pos h, if_pos (by omega)]
        · rw [if_neg h, if_neg (by omega)]
    · intro j hj
      rw [h4 j (fun k hk => by have := hj k hk r hr; intro he; apply this; rw [he]; ring), h2 j hj]
  · rintro l ⟨g', rfl, h1, h2⟩
    refine ⟨g', rfl, ?_, h2⟩
    intro y hy x hx
    rw [h1 y hy x hx, if_pos hx]

/-- The factor of `aasf`, exactly. -/
noncomputable def aanScale (k : ℕ) : ℝ := if k = 0 then 4 * cs 4 else 4 * cs k

theorem sqrt_two : (√2 : ℝ) = 2 * cs 4 := by
  have h := cs_sq 4
  rw [show 2 * 4 = 8 from rfl, cs_eight] at h
  have h4 := cs4.1
  have : (0 : ℝ) ≤ cs 4 := by linarith
  rw [Real.sqrt_eq_iff_mul_self_eq (by norm_num) (by linarith)]
  nlinarith

theorem aan_eq (k : ℕ) : aan k = aanScale k * (Jpg.norm0 k / 2) := by
  unfold aan aanScale Jpg.norm0
  split
  · rw [sqrt_two]
    have h4 : cs 4 ≠ 0 := by
      have := cs4.1
      intro h
      rw [h] at this
      norm_num at this
    field_simp
    norm_num
  · ring

/-- The transform of rows and then of columns. -/
theorem line_line (s : ℕ → ℕ → ℝ) (v u : ℕ) :
    line (fun y => line (s y) u) v = aanScale v * aanScale u * Jpg.dct s v u := by
  have e : ∀ y u : ℕ, Real.cos ((2 * y + 1) * u * Real.pi / 16) = cs ((2 * y + 1) * u) := by
    intro y u
    unfold cs
    push_cast
    rfl
  unfold line Jpg.dct
  rw [aan_eq v]
  simp only [aan_eq u, e]
  rw [Finset.mul_sum, Finset.mul_sum, Finset.mul_sum]
  refine Finset.sum_congr rfl fun y _ => ?_
  rw [Finset.mul_sum, Finset.mul_sum, Finset.mul_sum, Finset.sum_mul, Finset.mul_sum]
  refine Finset.sum_congr rfl fun x _ => ?_
  ring

/-- The transform of a block: what it computes and with what error; nothing else is changed. -/
theorem transform_ok {n base stride : ℕ} {g : ℕ → Dbl} {s : ℕ → ℕ → ℝ} {m : ℝ} (hs : stride = 8 ∨ stride = 16)
    (hn : base + stride * 7 + 7 < n) (hm : 1 ≤ m) (hm' : m ≤ 10 ^ 4)
    (hg : ∀ y < 8, ∀ x < 8, Apx (g (base + y * stride + x)) (s y x) m 0) :
    Ok (dctRows (fnTab n g) base stride >>= fun c => dctCols c base stride) fun l => ∃ g', l = fnTab n g' ∧
      (∀ v < 8, ∀ u < 8, Apx (g' (base + v * stride + u)) (aanScale v * aanScale u * Jpg.dct s v u) (175 * m) (2120 * m / 16777216)) ∧
      ∀ j, (∀ y < 8, ∀ x < 8, j ≠ base + y * stride + x) → g' j = g j := by
  refine Ok.bind (dctRows_ok g hs hn) ?_
  rintro _ ⟨g1, rfl, h1, h2⟩
  refine (dctCols_ok g1 hs hn).mono ?_
  rintro _ ⟨g2, rfl, h3, h4⟩
  refine ⟨g2, rfl, ?_, fun j hj => by rw [h4 j hj, h2 j hj]⟩
  intro v hv u hu
  rw [h3 v hv u hu, ← line_line]
  have k1 : ∀ y < 8, Apx (g1 (base + y * stride + u)) (line (s y) u) (13.2 * m) (80 * m / 16777216) := by
    intro y hy
    rw [h1 y hy u hu]
    exact (dct_near (fun i hi => hg y hy i hi) hm le_rfl (by linarith) (by norm_num) hu).mono le_rfl (by linarith)
  refine (dct_near k1 (by linarith) (by positivity) (by linarith) ?_ hv).mono ?_ ?_
  · linarith
  · linarith
  · linarith

end FlatCV
