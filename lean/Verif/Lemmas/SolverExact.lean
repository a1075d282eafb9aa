/-
The linear solver in exact arithmetic.
-/
import Verif.Lemmas.Solver
import Verif.Spec.Perspective
import Mathlib.Algebra.BigOperators.Ring.Finset
import Mathlib.Algebra.BigOperators.Intervals
import Mathlib.Tactic.LinearCombination

namespace FlatCV
open Model Spec Finset

theorem tiny10_pos : 0 < tiny10 := by unfold tiny10; norm_num

theorem exact_divOk : DivOk Arith.exact := by
  intro a b h
  have hb : b ≠ 0 := by
    rintro rfl
    have h' : decide (|(0 : ℚ)| < tiny10) = false := h
    simp [tiny10_pos] at h'
  exact ⟨a / b, if_neg hb⟩

theorem exact_div {a b q : ℚ} (h : Arith.exact.div a b = .ok q) : b ≠ 0 ∧ q * b = a := by
  unfold Arith.exact at h
  dsimp only at h
  split at h
  · cases h
  · rename_i hb
    cases h
    exact ⟨hb, div_mul_cancel₀ a hb⟩

/-- The equations of an augmented matrix. -/
def SolM (M : Nat → Nat → ℚ) (v : Nat → ℚ) : Prop :=
  ∀ i, i < 8 → ∑ j ∈ range 8, M i j * v j = M i 8

/-- Column `c < i` has been eliminated. -/
def Elim (i : Nat) (M : Nat → Nat → ℚ) : Prop := ∀ c, c < i → ∀ r, c < r → r < 8 → M r c = 0

theorem solM_swap {M : Nat → Nat → ℚ} {i m : Nat} (hi : i < 8) (hm : m < 8) (v : Nat → ℚ) :
    SolM (swapM M i m) v ↔ SolM M v := by
  unfold SolM swapM
  constructor
  · intro h k hk
    by_cases e1 : k = m
    · subst e1
      simpa using h i hi
    · by_cases e2 : k = i
      · subst e2
        have := h m hm
        simpa [Ne.symm e1] using this
      · simpa [e1, e2] using h k hk
  · intro h k hk
    by_cases e2 : k = i
    · subst e2; simpa using h m hm
    · by_cases e1 : k = m
      · subst e1; simpa [e2] using h i hi
      · simpa [e1, e2] using h k hk

theorem elim_swap {M : Nat → Nat → ℚ} {i m : Nat} (h : Elim i M) (him : i ≤ m) (hm : m < 8) : Elim i (swapM M i m) := by
  intro c hc r hr hr8
  unfold swapM
  split
  · exact h c hc m (by omega) hm
  · split
    · exact h c hc i hc (by omega)
    · exact h c hc r hr hr8

theorem elimM_row {M : Nat → Nat → ℚ} {i : Nat} {f : Nat → ℚ} (hi : i < 8) (h : Elim i M) {a b : Nat} (ha : i < a)
    (ha8 : a < 8) : elimM Arith.exact f i M a b = M a b - f a * M i b := by
  unfold elimM
  by_cases e : i ≤ b
  · rw [if_pos ⟨ha, e⟩]; rfl
  · rw [if_neg (by omega), h b (by omega) i (by omega) hi, h b (by omega) a (by omega) ha8]
    ring

theorem elimM_keep {M : Nat → Nat → ℚ} {i : Nat} {f : Nat → ℚ} {a b : Nat} (ha : a ≤ i) :
    elimM Arith.exact f i M a b = M a b := by
  unfold elimM
  rw [if_neg (by omega)]

theorem solM_elim {M : Nat → Nat → ℚ} {i : Nat} {f : Nat → ℚ} (hi : i < 8) (h : Elim i M) (v : Nat → ℚ) :
    SolM (elimM Arith.exact f i M) v ↔ SolM M v := by
  have row : ∀ a, i < a → a < 8 → ∑ j ∈ range 8, elimM Arith.exact f i M a j * v j =
      ∑ j ∈ range 8, M a j * v j - f a * ∑ j ∈ range 8, M i j * v j := by
    intro a ha ha8
    rw [mul_sum, ← sum_sub_distrib]
    refine sum_congr rfl fun j _ => ?_
    rw [elimM_row hi h ha ha8]
    ring
  constructor
  · intro hs a ha8
    have hii : ∑ j ∈ range 8, M i j * v j = M i 8 := by
      have := hs i hi
      simpa only [elimM_keep (le_refl i)] using this
    by_cases ha : i < a
    · have := hs a ha8
      rw [row a ha ha8, elimM_row hi h ha ha8, hii] at this
      linarith
    · have := hs a ha8
      simpa only [elimM_keep (show a ≤ i by omega)] using this
  · intro hs a ha8
    by_cases ha : i < a
    · rw [row a ha ha8, elimM_row hi h ha ha8, hs i hi, hs a ha8]
    · simp only [elimM_keep (show a ≤ i by omega)]
      exact hs a ha8

theorem elim_step {M : Nat → Nat → ℚ} {i : Nat} {f : Nat → ℚ} (hi : i < 8) (h : Elim i M)
    (hf : ∀ j, i < j → j < 8 → Arith.exact.div (M j i) (M i i) = .ok (f j)) :
    Elim (i + 1) (elimM Arith.exact f i M) := by
  intro c hc r hr hr8
  by_cases e : c = i
  · subst e
    rw [elimM_row hi h hr hr8, (exact_div (hf r hr hr8)).2]
    ring
  · by_cases e2 : i < r
    · rw [elimM_row hi h e2 hr8, h c (by omega) r hr hr8, h c (by omega) i (by omega) hi]
      ring
    · rw [elimM_keep (by omega)]
      exact h c (by omega) r hr hr8

theorem backRow_exact (M : Nat → Nat → ℚ) (X : Nat → ℚ) (i n : Nat) :
    backRow Arith.exact M X i n = M i 8 - ∑ k ∈ range n, M i (i + 1 + k) * X (i + 1 + k) := by
  induction n with
  | zero => simp [backRow]
  | succ n ih =>
    rw [sum_range_succ]
    unfold backRow
    rw [ih]
    change M i 8 - _ - M i (i + 1 + n) * X (i + 1 + n) = _
    ring

/-- Splitting a triangular row at the diagonal. -/
theorem tri_row {M : Nat → Nat → ℚ} (h : Elim 8 M) (v : Nat → ℚ) {i : Nat} (hi : i < 8) :
    ∑ j ∈ range 8, M i j * v j = M i i * v i + ∑ k ∈ range (7 - i), M i (i + 1 + k) * v (i + 1 + k) := by
  obtain ⟨n, rfl⟩ : ∃ n, n = 7 - i := ⟨_, rfl⟩
  have e : 8 = i + 1 + (7 - i) := by omega
  rw [e, sum_range_add, sum_range_succ]
  have z : ∑ j ∈ range i, M i j * v j = 0 := by
    refine sum_eq_zero fun j hj => ?_
    rw [mem_range] at hj
    rw [h j (by omega) i hj hi, zero_mul]
  rw [z, zero_add]

theorem solved_exact {M : Nat → Nat → ℚ} {X : Nat → ℚ} (h : Elim 8 M)
    (hX : ∀ i, i < 8 → Arith.exact.div (backRow Arith.exact M X i (7 - i)) (M i i) = .ok (X i)) :
    SolM M X ∧ ∀ v, SolM M v → ∀ i, i < 8 → v i = X i := by
  constructor
  · intro i hi
    obtain ⟨hne, e⟩ := exact_div (hX i hi)
    rw [backRow_exact] at e
    rw [tri_row h X hi]
    linarith
  · intro v hv i hi
    obtain ⟨k, rfl⟩ : ∃ k, i = 7 - k := ⟨7 - i, by omega⟩
    induction k using Nat.strong_induction_on with
    | _ k ih =>
      have hv' := hv (7 - k) hi
      rw [tri_row h v hi] at hv'
      obtain ⟨hne, e⟩ := exact_div (hX _ hi)
      rw [backRow_exact] at e
      have es : ∑ j ∈ range (7 - (7 - k)), M (7 - k) (7 - k + 1 + j) * v (7 - k + 1 + j) =
          ∑ j ∈ range (7 - (7 - k)), M (7 - k) (7 - k + 1 + j) * X (7 - k + 1 + j) := by
        refine sum_congr rfl fun j hj => ?_
        rw [mem_range] at hj
        have := ih (7 - (7 - k + 1 + j)) (by omega) (by omega)
        rw [show 7 - (7 - (7 - k + 1 + j)) = 7 - k + 1 + j by omega] at this
        rw [this]
      rw [es] at hv'
      have : M (7 - k) (7 - k) * (v (7 - k) - X (7 - k)) = 0 := by linarith
      rcases mul_eq_zero.1 this with h0 | h0
      · exact absurd h0 hne
      · linarith

/-- The solver in exact arithmetic. -/
theorem solve_exact (A : Nat → Nat → ℚ) (b : Nat → ℚ) {x : Cells ℚ} (hx : x.length = 8) :
    Ok (solve_linear_system Arith.exact A b x) fun r => ∀ y, r = some y →
      ∃ v : Nat → ℚ, y = (List.range 8).map (fun j => some (v j)) ∧ Solves A b v ∧
        ∀ v', Solves A b v' → ∀ j, j < 8 → v' j = v j := by
  have hA : ∀ v, SolM (augM A b) v ↔ Solves A b v := by
    intro v
    unfold SolM Solves augM
    refine forall_congr' fun i => forall_congr' fun hi => ?_
    rw [if_neg (by omega)]
    have : ∑ j ∈ range 8, (if j < 8 then A i j else b i) * v j = ∑ j ∈ range 8, A i j * v j :=
      sum_congr rfl fun j hj => by rw [mem_range] at hj; rw [if_pos hj]
    rw [this]
  refine (solve_ok exact_divOk hx (fun i M => Elim i M ∧ ∀ v, SolM M v ↔ SolM (augM A b) v) ?_ ?_).mono ?_
  · exact ⟨fun c hc => by omega, fun v => Iff.rfl⟩
  · rintro i M m f hi ⟨hE, hS⟩ him hm - hf
    have hE' := elim_swap hE him hm
    exact ⟨elim_step hi hE' hf, fun v => (solM_elim hi hE' v).trans ((solM_swap hi hm v).trans (hS v))⟩
  · rintro r hr y rfl
    obtain ⟨M, ⟨hE, hS⟩, hl, X, hX⟩ := hr y rfl
    obtain ⟨h1, h2⟩ := solved_exact hE fun i hi => (hX i (by omega) hi).2.1
    refine ⟨X, ?_, (hA X).1 ((hS X).1 h1), fun v' hv' j hj => h2 v' ((hS v').2 ((hA v').2 hv')) j hj⟩
    refine List.ext_getElem? fun i => ?_
    by_cases hi : i < 8
    · rw [(hX i (by omega) hi).1]
      simp [hi]
    · rw [List.getElem?_eq_none (by omega), List.getElem?_eq_none (by simp; omega)]

end FlatCV
