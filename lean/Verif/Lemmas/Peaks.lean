/-
Corner peaks: the loops of `fcv_corner_peaks`.
-/
import Verif.Lemmas.Mem
import Verif.Lemmas.Image
import Verif.Spec.Peaks
import Verif.Model.Peaks
import Mathlib.Tactic.IntervalCases

namespace FlatCV
open Model Spec

/-! ### One pixel -/

theorem u32_off {y : Nat} {o : Int} (h1 : -1 ≤ o) (h2 : o ≤ 1) (hy : 1 ≤ y)
    (hy2 : y + 1 < 4294967296) : u32 (y + u32OfInt o) = ((y : Int) + o).toNat := by
  unfold u32 u32OfInt
  omega

theorem peakOffsets_range {k : Nat} (hk : k < 9) : ∃ o, peakOffsets[k]? = some o ∧
    -1 ≤ o.1 ∧ o.1 ≤ 1 ∧ -1 ≤ o.2 ∧ o.2 ≤ 1 := by
  unfold peakOffsets
  interval_cases k <;> exact ⟨_, rfl, by decide, by decide, by decide, by decide⟩

theorem peakOffsets_all {a b : Int} (h1 : -1 ≤ a) (h2 : a ≤ 1) (h3 : -1 ≤ b) (h4 : b ≤ 1) :
    ∃ k, k < 9 ∧ peakOffsets[k]? = some (a, b) := by
  unfold peakOffsets
  have ha : a = -1 ∨ a = 0 ∨ a = 1 := by omega
  have hb : b = -1 ∨ b = 0 ∨ b = 1 := by omega
  rcases ha with rfl | rfl | rfl <;> rcases hb with rfl | rfl | rfl
  · exact ⟨0, by decide, rfl⟩
  · exact ⟨3, by decide, rfl⟩
  · exact ⟨6, by decide, rfl⟩
  · exact ⟨1, by decide, rfl⟩
  · exact ⟨4, by decide, rfl⟩
  · exact ⟨7, by decide, rfl⟩
  · exact ⟨2, by decide, rfl⟩
  · exact ⟨5, by decide, rfl⟩
  · exact ⟨8, by decide, rfl⟩

/-- The pixel is not zero and not smaller than its neighbours. -/
def LocalMax (w : Nat) (d : List UInt8) (p : Nat × Nat) : Prop :=
  resp w d p ≠ 0 ∧ ∀ q : Nat × Nat, q.1 ≤ p.1 + 1 → p.1 ≤ q.1 + 1 → q.2 ≤ p.2 + 1 →
    p.2 ≤ q.2 + 1 → resp w d q ≤ resp w d p

section
variable {w h : Nat} {d v : List UInt8}

/-- Through 32-bit indices, the data `d` looks like the image `v`. -/
def View (w h : Nat) (d v : List UInt8) : Prop :=
  ∀ x y c, x < w → y < h → c < 2 →
    rdIn d (u32 (u32 (u32 (u32 (y * w) + x) * 2) + c)) = .ok (px w 2 v x y c)

theorem view_self (hd : d.length = w * h * 2) (hs : w * h * 2 ≤ 4294967296) : View w h d d := by
  intro x y c hx hy hc
  have h1 := idx3_lt (ch := 2) hx hy hc
  rw [u32_eq (n := y * w) (by omega), u32_eq (n := y * w + x) (by omega),
    u32_eq (n := (y * w + x) * 2) (by omega), u32_eq (by omega)]
  exact rdIn_ok (getElem?_px hd hx hy hc)

open Classical in
theorem is_local_maximum_ok {x y : Nat} (hv : View w h d v)
    (hw : w < 4294967296) (hh : h < 4294967296)
    (hx0 : 0 < x) (hx : x + 1 < w) (hy0 : 0 < y) (hy : y + 1 < h) :
    is_local_maximum d w h x y 0 = .ok (decide (LocalMax w v (x, y))) := by
  unfold is_local_maximum
  rw [u32sub_eq (by omega) (by omega), u32sub_eq (by omega) (by omega),
    if_neg (by omega)]
  have e1 := hv x y 0 (by omega) (by omega) (by omega)
  simp only
  rw [e1, ok_bind]
  by_cases hz : px w 2 v x y 0 = 0
  · rw [if_pos hz]
    have : ¬ LocalMax w v (x, y) := fun hc => hc.1 hz
    simp only [this, decide_false]
    rfl
  rw [if_neg hz]
  apply Ok.eq
  refine (forBreak_ok (fun k b => b = true ∧ ∀ j, j < k → ∀ o, peakOffsets[j]? = some o →
      resp w v (((x : Int) + o.1).toNat, ((y : Int) + o.2).toNat) ≤ resp w v (x, y))
    (fun b => b = false ∧ ¬ LocalMax w v (x, y)) ⟨rfl, by intro j hj; omega⟩ ?_).mono ?_
  · intro k _ hk b hI
    obtain ⟨o, ho, h1, h2, h3, h4⟩ := peakOffsets_range (k := k) (by omega)
    rw [rdIn_ok ho, ok_bind]
    by_cases h0 : o.1 = 0 ∧ o.2 = 0
    · rw [if_pos h0]
      refine Ok.pure' ⟨rfl, ?_⟩
      intro j hj o' ho'
      by_cases hjk : j < k
      · exact hI.2 j hjk o' ho'
      · have : j = k := by omega
        subst this
        rw [ho] at ho'
        cases ho'
        have ex : ((x : Int) + o.1).toNat = x := by omega
        have ey : ((y : Int) + o.2).toNat = y := by omega
        rw [ex, ey]
        exact UInt8.le_refl _
    · rw [if_neg h0]
      rw [u32_off h3 h4 (by omega) (by omega), u32_off h1 h2 (by omega) (by omega)]
      rw [hv ((x : Int) + o.1).toNat ((y : Int) + o.2).toNat 0 (by omega) (by omega) (by omega), ok_bind]
      by_cases hgt : px w 2 v ((x : Int) + o.1).toNat ((y : Int) + o.2).toNat 0 > px w 2 v x y 0
      · rw [if_pos hgt]
        refine Ok.pure' ⟨rfl, fun hc => ?_⟩
        have := hc.2 (((x : Int) + o.1).toNat, ((y : Int) + o.2).toNat) (by simp only; omega)
          (by simp only; omega) (by simp only; omega) (by simp only; omega)
        exact absurd hgt (UInt8.not_lt.2 this)
      · rw [if_neg hgt]
        refine Ok.pure' ⟨rfl, ?_⟩
        intro j hj o' ho'
        by_cases hjk : j < k
        · exact hI.2 j hjk o' ho'
        · have : j = k := by omega
          subst this
          rw [ho] at ho'
          cases ho'
          exact UInt8.not_lt.1 hgt
  · rintro b (⟨rfl, hb⟩ | ⟨rfl, hb⟩)
    · simp [hb]
    · have : LocalMax w v (x, y) := by
        refine ⟨hz, ?_⟩
        rintro ⟨qx, qy⟩ h1 h2 h3 h4
        simp only at h1 h2 h3 h4
        obtain ⟨k, hk, ho⟩ := peakOffsets_all (a := (qx : Int) - x) (b := (qy : Int) - y)
          (by omega) (by omega) (by omega) (by omega)
        have := hb k (by omega) _ ho
        have ex : ((x : Int) + ((qx : Int) - x)).toNat = qx := by omega
        have ey : ((y : Int) + ((qy : Int) - y)).toNat = qy := by omega
        simp only [ex, ey] at this
        exact this
      simp [this]

theorem unit_ok (v : UInt8) : f64div ((v.toNat : ℕ) : ℚ) 255 = .ok (unitOf v) := by
  refine f64div_ok (by norm_num) ?_
  have h1 : ((v.toNat : ℕ) : ℚ) ≤ 255 := by
    have := v.toNat_lt
    exact_mod_cast (by omega : v.toNat ≤ 255)
  have h0 : (0 : ℚ) ≤ (v.toNat : ℕ) := Nat.cast_nonneg _
  rw [abs_of_nonneg (by positivity), div_le_iff₀ (by norm_num)]
  refine h1.trans ?_
  norm_num

variable {acc rou : ℚ}

theorem qualified_iff {x y : Nat} (hx0 : 0 < x) (hx : x + 1 < w) (hy0 : 0 < y) (hy : y + 1 < h) :
    Qualified w h v acc rou (x, y) ↔ (unitOf (px w 2 v x y 1) > rou ∧ unitOf (px w 2 v x y 0) > acc) ∧
      LocalMax w v (x, y) :=
  ⟨fun q => ⟨⟨q.round, q.accurate⟩, q.positive, q.maximal⟩,
    fun ⟨⟨h1, h2⟩, h3, h4⟩ => ⟨hx0, hx, hy0, hy, h2, h1, h3, h4⟩⟩

/-- A point as the code stores it. -/
def toPt (p : Nat × Nat) : Point2D := ((p.1 : ℚ), (p.2 : ℚ))

open Classical in
theorem peakPixel_eq {x y : Nat} (hv : View w h d v)
    (hw : w < 4294967296) (hh : h < 4294967296)
    (hx0 : 0 < x) (hx : x + 1 < w) (hy0 : 0 < y) (hy : y + 1 < h) (s : Cells Point2D × Nat) :
    peakPixel w h d acc rou x y s = if Qualified w h v acc rou (x, y) then do
        let c ← wr s.1 s.2 (toPt (x, y))
        pure (c, u32 (s.2 + 1))
      else pure s := by
  unfold peakPixel
  have e1 := hv x y 0 (by omega) (by omega) (by omega)
  have e3 := hv x y 1 (by omega) (by omega) (by omega)
  rw [Nat.add_zero, u32_eq (u32_lt _)] at e1
  simp only
  rw [e1, e3]
  rw [ok_bind, unit_ok, ok_bind, ok_bind, unit_ok, ok_bind,
    is_local_maximum_ok hv hw hh hx0 hx hy0 hy, ok_bind]
  by_cases hc : unitOf (px w 2 v x y 1) > rou ∧ unitOf (px w 2 v x y 0) > acc
  · rw [if_pos hc]
    by_cases hm : LocalMax w v (x, y)
    · rw [if_pos ((qualified_iff hx0 hx hy0 hy).2 ⟨hc, hm⟩)]
      simp only [hm, decide_true, if_true]
      rfl
    · rw [if_neg (fun hq => hm ((qualified_iff hx0 hx hy0 hy).1 hq).2)]
      simp only [hm, decide_false, Bool.false_eq_true, if_false]
  · rw [if_neg hc, if_neg (fun hq => hc ((qualified_iff hx0 hx hy0 hy).1 hq).1)]

/-! ### A block filled from the front -/

/-- The first elements of the block are `l`, the remaining `k` are not written. -/
def prefixCells {α : Type} (l : List α) (k : Nat) : Cells α := l.map some ++ List.replicate k none

theorem push_ok {α : Type} {l : List α} {k : Nat} (v : α) (hk : 0 < k) :
    wr (prefixCells l k) l.length v = .ok (prefixCells (l ++ [v]) (k - 1)) := by
  unfold prefixCells
  rw [wr_ok (by simp; omega)]
  congr 1
  obtain ⟨j, rfl⟩ : ∃ j, k = j + 1 := ⟨k - 1, by omega⟩
  apply List.ext_getElem?
  intro i
  simp only [List.map_append, List.map_cons, List.map_nil, List.replicate_succ, Nat.add_sub_cancel]
  rw [List.set_append]
  simp

theorem rd_prefix {α : Type} {l : List α} {k i : Nat} {v : α} (h : l[i]? = some v) :
    rd (prefixCells l k) i = .ok v := by
  have hi : i < l.length := by
    by_contra hc
    rw [List.getElem?_eq_none (by omega)] at h
    cases h
  refine rd_ok ?_
  unfold prefixCells
  rw [List.getElem?_append_left (by simpa using hi), List.getElem?_map, h]
  rfl

/-! ### The candidates -/

open Classical in
/-- Qualified pixels among the first `n` interior pixels of interior row `y`. -/
noncomputable def rowC (w h : Nat) (v : List UInt8) (acc rou : ℚ) (y n : Nat) : List (Nat × Nat) :=
  ((List.range n).map fun x => (x + 1, y + 1)).filter fun p => decide (Qualified w h v acc rou p)

/-- Qualified pixels of the first `m` interior rows. -/
noncomputable def allC (w h : Nat) (v : List UInt8) (acc rou : ℚ) (m : Nat) : List (Nat × Nat) :=
  (List.range m).flatMap fun y => rowC w h v acc rou y (w - 2)

theorem rowC_len (y n : Nat) : (rowC w h v acc rou y n).length ≤ n := by
  unfold rowC
  refine (List.length_filter_le _ _).trans ?_
  simp

theorem allC_succ (m : Nat) :
    allC w h v acc rou (m + 1) = allC w h v acc rou m ++ rowC w h v acc rou m (w - 2) := by
  unfold allC
  rw [List.range_succ, List.flatMap_append]
  simp

theorem allC_len (m : Nat) : (allC w h v acc rou m).length ≤ m * (w - 2) := by
  induction m with
  | zero => simp [allC]
  | succ m ih =>
    rw [allC_succ, List.length_append, Nat.add_mul, Nat.one_mul]
    have := rowC_len (w := w) (h := h) (v := v) (acc := acc) (rou := rou) m (w - 2)
    omega

/-- All candidates. -/
noncomputable def cands (w h : Nat) (v : List UInt8) (acc rou : ℚ) : List (Nat × Nat) :=
  allC w h v acc rou (h - 2)

theorem mem_rowC {y n : Nat} {p : Nat × Nat} : p ∈ rowC w h v acc rou y n ↔
    Qualified w h v acc rou p ∧ p.2 = y + 1 ∧ 1 ≤ p.1 ∧ p.1 ≤ n := by
  unfold rowC
  simp only [List.mem_filter, List.mem_map, List.mem_range, decide_eq_true_eq]
  constructor
  · rintro ⟨⟨x, hx, rfl⟩, hq⟩
    exact ⟨hq, rfl, by simp, by simp only; omega⟩
  · rintro ⟨hq, h1, h2, h3⟩
    exact ⟨⟨p.1 - 1, by omega, Prod.ext (by simp only; omega) h1.symm⟩, hq⟩

theorem mem_cands {p : Nat × Nat} : p ∈ cands w h v acc rou ↔ Qualified w h v acc rou p := by
  unfold cands allC
  simp only [List.mem_flatMap, List.mem_range, mem_rowC]
  constructor
  · rintro ⟨y, _, hq, _⟩
    exact hq
  · intro hq
    have h1 := hq.left
    have h2 := hq.right
    have h3 := hq.top
    have h4 := hq.bottom
    exact ⟨p.2 - 1, by omega, hq, by omega, by omega, by omega⟩

theorem rowC_sorted (y n : Nat) : (rowC w h v acc rou y n).Pairwise Before := by
  unfold rowC
  apply List.Pairwise.filter
  rw [List.pairwise_map]
  refine List.pairwise_lt_range.imp ?_
  intro a b hab
  exact Or.inr ⟨rfl, by simp only; omega⟩

theorem allC_sorted (m : Nat) : (allC w h v acc rou m).Pairwise Before := by
  induction m with
  | zero => simp [allC]
  | succ m ih =>
    rw [allC_succ, List.pairwise_append]
    refine ⟨ih, rowC_sorted _ _, ?_⟩
    intro a ha b hb
    unfold allC at ha
    simp only [List.mem_flatMap, List.mem_range, mem_rowC] at ha
    obtain ⟨y, hy, _, e, _⟩ := ha
    rw [mem_rowC] at hb
    exact Or.inl (by omega)

theorem interior_lt (hw : 0 < w) (hh : 0 < h) : (h - 2) * (w - 2) + 1 ≤ w * h := by
  have h1 : (h - 2) * (w - 2) ≤ (h - 1) * w := Nat.mul_le_mul (by omega) (by omega)
  obtain ⟨k, rfl⟩ : ∃ k, h = k + 1 := ⟨h - 1, by omega⟩
  rw [Nat.add_sub_cancel] at h1
  rw [Nat.mul_add, Nat.mul_one, Nat.mul_comm w k]
  omega

theorem peakCandidates_ok (hv : View w h d v)
    (hw : w < 4294967296) (hh : h < 4294967296) (hw0 : 0 < w) (hh0 : 0 < h) (hn : w * h < 4294967296) :
    peakCandidates w h d acc rou (List.replicate (w * h) none)
      = .ok (prefixCells ((cands w h v acc rou).map toPt) (w * h - (cands w h v acc rou).length),
          (cands w h v acc rou).length) := by
  have hcap := interior_lt hw0 hh0
  unfold peakCandidates
  rw [u32sub_eq (by omega) (by omega), u32sub_eq (by omega) (by omega)]
  have eh : h - 1 - 1 = h - 2 := by omega
  have ew : w - 1 - 1 = w - 2 := by omega
  rw [eh, ew]
  apply Ok.eq
  refine (forN_ok (fun i s => s = (prefixCells ((allC w h v acc rou i).map toPt)
      (w * h - (allC w h v acc rou i).length), (allC w h v acc rou i).length))
    (by simp [allC, prefixCells]) ?_).mono (fun s hs => hs)
  intro i hi s hI
  have hlen := allC_len (w := w) (h := h) (v := v) (acc := acc) (rou := rou) i
  have hrow : i * (w - 2) + (w - 2) ≤ (h - 2) * (w - 2) := by
    have := Nat.mul_le_mul_right (w - 2) (show i + 1 ≤ h - 2 by omega)
    rw [Nat.add_mul, Nat.one_mul] at this
    exact this
  rw [allC_succ]
  generalize allC w h v acc rou i = A at *
  refine (forN_ok (fun j s => s = (prefixCells ((A ++ rowC w h v acc rou i j).map toPt)
      (w * h - (A ++ rowC w h v acc rou i j).length), (A ++ rowC w h v acc rou i j).length))
    (by simp [rowC, hI]) ?_).mono (fun s hs => hs)
  intro j hj s hJ
  have hlen2 := rowC_len (w := w) (h := h) (v := v) (acc := acc) (rou := rou) i j
  rw [peakPixel_eq hv hw hh (by omega) (by omega) (by omega) (by omega)]
  by_cases hq : Qualified w h v acc rou (j + 1, i + 1)
  · have er : rowC w h v acc rou i (j + 1) = rowC w h v acc rou i j ++ [(j + 1, i + 1)] := by
      unfold rowC
      rw [List.range_succ, List.map_append, List.filter_append]
      simp [hq]
    rw [if_pos hq, hJ, er]
    have hL : (A ++ rowC w h v acc rou i j).length < w * h := by
      rw [List.length_append]; omega
    rw [← List.append_assoc]
    generalize A ++ rowC w h v acc rou i j = L at *
    have := push_ok (l := L.map toPt) (k := w * h - L.length) (toPt (j + 1, i + 1)) (by omega)
    rw [List.length_map] at this
    simp only
    rw [this, ok_bind, u32_eq (by omega)]
    refine Ok.pure' ?_
    simp only [List.map_append, List.map_cons, List.map_nil, List.length_append, List.length_cons,
      List.length_nil]
    congr 2
  · have er : rowC w h v acc rou i (j + 1) = rowC w h v acc rou i j := by
      unfold rowC
      rw [List.range_succ, List.map_append, List.filter_append]
      simp [hq]
    rw [if_neg hq, hJ, er]
    exact Ok.pure' rfl

end

end FlatCV
