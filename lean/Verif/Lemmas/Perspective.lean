/-
The perspective matrix.
-/
import Verif.Lemmas.SolverExact
import Mathlib.Tactic.FieldSimp

namespace FlatCV
open Model Spec

variable {α : Type} {R : Arith α}

/-- The matrix made of a solution. -/
def matOf (R : Arith α) (X : Nat → α) : Mat α := ⟨X 0, X 1, X 2, X 3, X 4, X 5, X 6, X 7, R.ofRat 1⟩

/-- The eight cells `X 0 … X 7`. -/
def cells8 (X : Nat → α) : Cells α := (List.range 8).map fun j => some (X j)

theorem rd_cells8 (X : Nat → α) {i : Nat} (hi : i < 8) : rd (cells8 X) i = .ok (X i) :=
  rd_ok (by simp [cells8, hi])

/-- A coefficient that is accepted. -/
def Good (R : Arith α) (v : α) : Prop :=
  R.isNan v = false ∧ R.isInf v = false ∧ R.lt (R.ofRat 1000000) (R.abs v) = false

theorem solutionOk_ok (X : Nat → α) :
    Ok (solutionOk R (cells8 X)) fun b => b = true → ∀ j, j < 8 → Good R (X j) := by
  unfold solutionOk
  refine (forBreak_ok (fun i (_ : Bool) => ∀ j, j < i → Good R (X j)) (fun b => b = false) ?_ ?_).mono ?_
  · intro j hj; omega
  · intro i _ hi b hb
    rw [rd_cells8 X (by omega), ok_bind]
    split
    · exact Ok.pure' (by simp)
    · rename_i h
      refine Ok.pure' ?_
      simp only [Bool.false_eq_true, if_false]
      intro j hj
      by_cases e : j = i
      · subst e
        simp only [Bool.or_eq_true, not_or, Bool.not_eq_true] at h
        exact ⟨h.1.1, h.1.2, h.2⟩
      · exact hb j (by omega)
  · rintro b (hb | hb) ht
    · rw [hb] at ht; cases ht
    · simpa using hb

theorem use_nil {β : Type} (c : CM β) (hp : Heap) : use [] c hp = (match c with
    | .ok a => .ok (a, hp)
    | .error e => .error (.comp e)) := by
  unfold use
  rw [if_pos (by simp)]
  cases c <;> rfl

theorem hm_step {β γ : Type} {m : HM β} {f : β → HM γ} {hp h' : Heap} {a : β} (h : m hp = .ok (a, h')) :
    (m >>= f) hp = f a h' := by
  rw [hm_bind, h]

/-- The two possible outcomes of computing a matrix, given what is known about the solver. -/
theorem calc_cases {s d : Corners α} {hp : Heap} {Q : (Nat → α) → Prop}
    (hs : Ok (solve_linear_system R (sysA R s d) (sysB d) (List.replicate 8 (some (R.ofRat 0)))) fun r =>
      ∀ y, r = some y → ∃ X, y = cells8 X ∧ Q X) :
    fcv_calculate_perspective_transform R (some s) (some d) hp = .ok (.static, hp) ∨
    ∃ X, Q X ∧ (∀ j, j < 8 → Good R (X j)) ∧ s.any R.isNan = false ∧ d.any R.isNan = false ∧
      s.any R.isInf = false ∧ d.any R.isInf = false ∧
      ((hp.fails hp.next = true ∧
          fcv_calculate_perspective_transform R (some s) (some d) hp = .error (.comp .nullDeref)) ∨
       (hp.fails hp.next = false ∧
          fcv_calculate_perspective_transform R (some s) (some d) hp =
            .ok (.heap hp.next (matOf R X), { hp with next := hp.next + 1, live := hp.next :: hp.live }))) := by
  unfold fcv_calculate_perspective_transform
  dsimp only
  by_cases hn : (s.any R.isNan || d.any R.isNan) = true
  · rw [if_pos hn]; exact Or.inl rfl
  rw [if_neg hn]
  by_cases hi : (s.any R.isInf || d.any R.isInf) = true
  · rw [if_pos hi]; exact Or.inl rfl
  rw [if_neg hi]
  simp only [Bool.or_eq_true, not_or, Bool.not_eq_true] at hn hi
  obtain ⟨r, hr, hq⟩ := hs
  have e0 : use [] (solve_linear_system R (sysA R s d) (sysB d) (List.replicate 8 (some (R.ofRat 0)))) hp =
      .ok (r, hp) := by rw [use_nil, hr]
  simp only [hm_step e0]
  cases r with
  | none => left; rfl
  | some y =>
    obtain ⟨X, rfl, hX⟩ := hq y rfl
    obtain ⟨b, hb, hg⟩ := solutionOk_ok (R := R) X
    have e1 : use [] (solutionOk R (cells8 X)) hp = .ok (b, hp) := by rw [use_nil, hb]
    dsimp only
    simp only [hm_step e1]
    cases b with
    | false => left; rfl
    | true =>
      right
      refine ⟨X, hX, hg rfl, hn.1, hn.2, hi.1, hi.2, ?_⟩
      simp only [if_true]
      cases hf : hp.fails hp.next with
      | true =>
        refine Or.inl ⟨rfl, ?_⟩
        have e2 : malloc α 9 hp = .ok (none, { hp with next := hp.next + 1 }) := by
          unfold malloc; rw [hf]; rfl
        rw [hm_step e2]
        rfl
      | false =>
        refine Or.inr ⟨rfl, ?_⟩
        have e2 : malloc α 9 hp = .ok (some ⟨hp.next, List.replicate 9 none⟩,
            { hp with next := hp.next + 1, live := hp.next :: hp.live }) := by
          unfold malloc; rw [hf]; rfl
        rw [hm_step e2]
        simp only [rd_cells8 X (show 0 < 8 by decide), rd_cells8 X (show 1 < 8 by decide),
          rd_cells8 X (show 2 < 8 by decide), rd_cells8 X (show 3 < 8 by decide), rd_cells8 X (show 4 < 8 by decide),
          rd_cells8 X (show 5 < 8 by decide), rd_cells8 X (show 6 < 8 by decide), rd_cells8 X (show 7 < 8 by decide),
          ok_bind]
        have e3 : ∀ m : Mat α, use [hp.next] (pure m : CM (Mat α))
            { hp with next := hp.next + 1, live := hp.next :: hp.live } =
            .ok (m, { hp with next := hp.next + 1, live := hp.next :: hp.live }) := by
          intro m
          unfold use
          rw [if_pos (by simp)]
          rfl
        rw [hm_step (e3 _)]
        rfl

/-! ### Corners -/

theorem sys_sums (s d : Corners ℚ) (v : Nat → ℚ) {i : Nat} (hi : i < 4) :
    (∑ j ∈ Finset.range 8, sysA Arith.exact s d i j * v j =
      v 0 * s.x i + v 1 * s.y i + v 2 - d.x i * (v 6 * s.x i + v 7 * s.y i)) ∧
    (∑ j ∈ Finset.range 8, sysA Arith.exact s d (i + 4) j * v j =
      v 3 * s.x i + v 4 * s.y i + v 5 - d.y i * (v 6 * s.x i + v 7 * s.y i)) ∧
    sysB d i = d.x i ∧ sysB d (i + 4) = d.y i := by
  have hn : ¬ i + 4 < 4 := by omega
  have a0 : sysA Arith.exact s d i 0 = s.x i := if_pos hi
  have a1 : sysA Arith.exact s d i 1 = s.y i := if_pos hi
  have a2 : sysA Arith.exact s d i 2 = 1 := if_pos hi
  have a3 : sysA Arith.exact s d i 3 = 0 := if_pos hi
  have a4 : sysA Arith.exact s d i 4 = 0 := if_pos hi
  have a5 : sysA Arith.exact s d i 5 = 0 := if_pos hi
  have a6 : sysA Arith.exact s d i 6 = -s.x i * d.x i := if_pos hi
  have a7 : sysA Arith.exact s d i 7 = -s.y i * d.x i := if_pos hi
  have b0 : sysA Arith.exact s d (i + 4) 0 = 0 := if_neg hn
  have b1 : sysA Arith.exact s d (i + 4) 1 = 0 := if_neg hn
  have b2 : sysA Arith.exact s d (i + 4) 2 = 0 := if_neg hn
  have b3 : sysA Arith.exact s d (i + 4) 3 = s.x i := if_neg hn
  have b4 : sysA Arith.exact s d (i + 4) 4 = s.y i := if_neg hn
  have b5 : sysA Arith.exact s d (i + 4) 5 = 1 := if_neg hn
  have b6 : sysA Arith.exact s d (i + 4) 6 = -s.x i * d.y i := if_neg hn
  have b7 : sysA Arith.exact s d (i + 4) 7 = -s.y i * d.y i := if_neg hn
  have c1 : sysB d i = d.x i := if_pos hi
  have c2 : sysB d (i + 4) = d.y i := if_neg hn
  simp only [Finset.sum_range_succ, Finset.sum_range_zero, a0, a1, a2, a3, a4, a5, a6, a7, b0, b1, b2, b3, b4, b5,
    b6, b7, c1, c2]
  refine ⟨?_, ?_, trivial, trivial⟩ <;> ring

theorem sys_rows {s d : Corners ℚ} {v : Nat → ℚ} (h : Solves (sysA Arith.exact s d) (sysB d) v) {i : Nat} (hi : i < 4) :
    v 0 * s.x i + v 1 * s.y i + v 2 = d.x i * (v 6 * s.x i + v 7 * s.y i + 1) ∧
    v 3 * s.x i + v 4 * s.y i + v 5 = d.y i * (v 6 * s.x i + v 7 * s.y i + 1) := by
  obtain ⟨e1, e2, e3, e4⟩ := sys_sums s d v hi
  have h1 := h i (by omega)
  have h2 := h (i + 4) (by omega)
  rw [e1, e3] at h1
  rw [e2, e4] at h2
  constructor
  · linear_combination h1
  · linear_combination h2

theorem rows_sys {s d : Corners ℚ} {v : Nat → ℚ}
    (h : ∀ i, i < 4 → v 0 * s.x i + v 1 * s.y i + v 2 = d.x i * (v 6 * s.x i + v 7 * s.y i + 1) ∧
      v 3 * s.x i + v 4 * s.y i + v 5 = d.y i * (v 6 * s.x i + v 7 * s.y i + 1)) :
    Solves (sysA Arith.exact s d) (sysB d) v := by
  intro r hr
  by_cases h4 : r < 4
  · obtain ⟨e1, e2, e3, e4⟩ := sys_sums s d v h4
    rw [e1, e3]
    linear_combination (h r h4).1
  · obtain ⟨i, rfl⟩ : ∃ i, r = i + 4 := ⟨r - 4, by omega⟩
    obtain ⟨e1, e2, e3, e4⟩ := sys_sums s d v (show i < 4 by omega)
    rw [e2, e4]
    linear_combination (h i (by omega)).2

/-- Linear algebra behind `w ≠ 0`: four points in general position, mapped by `(X, Y, W)` to multiples of
the points `(u_i, v_i, 1)`. -/
theorem w_ne_zero {a b c d e f g k : ℚ} {x0 y0 x1 y1 x2 y2 x3 y3 u1 v1 u2 v2 u3 v3 : ℚ}
    (hX0 : a * x0 + b * y0 + c = 0) (hY0 : d * x0 + e * y0 + f = 0) (hW0 : g * x0 + k * y0 + 1 = 0)
    (hX1 : a * x1 + b * y1 + c = u1 * (g * x1 + k * y1 + 1)) (hY1 : d * x1 + e * y1 + f = v1 * (g * x1 + k * y1 + 1))
    (hX2 : a * x2 + b * y2 + c = u2 * (g * x2 + k * y2 + 1)) (hY2 : d * x2 + e * y2 + f = v2 * (g * x2 + k * y2 + 1))
    (hX3 : a * x3 + b * y3 + c = u3 * (g * x3 + k * y3 + 1)) (hY3 : d * x3 + e * y3 + f = v3 * (g * x3 + k * y3 + 1))
    (s123 : (x2 - x1) * (y3 - y1) - (y2 - y1) * (x3 - x1) ≠ 0)
    (s023 : (x2 - x0) * (y3 - y0) - (y2 - y0) * (x3 - x0) ≠ 0)
    (s013 : (x1 - x0) * (y3 - y0) - (y1 - y0) * (x3 - x0) ≠ 0)
    (s012 : (x1 - x0) * (y2 - y0) - (y1 - y0) * (x2 - x0) ≠ 0)
    (t123 : (u2 - u1) * (v3 - v1) - (v2 - v1) * (u3 - u1) ≠ 0) : False := by
  set w1 := g * x1 + k * y1 + 1 with hw1
  set w2 := g * x2 + k * y2 + 1 with hw2
  set w3 := g * x3 + k * y3 + 1 with hw3
  set D := (x2 - x1) * (y3 - y1) - (y2 - y1) * (x3 - x1) with hD
  set A := (x2 - x0) * (y3 - y0) - (y2 - y0) * (x3 - x0) with hA
  set B := (x1 - x0) * (y3 - y0) - (y1 - y0) * (x3 - x0) with hB
  set C := (x1 - x0) * (y2 - y0) - (y1 - y0) * (x2 - x0) with hC
  have eW : A * w1 - B * w2 + C * w3 = 0 := by
    rw [hw1, hw2, hw3, hA, hB, hC]
    linear_combination D * hW0
  have eX : A * (u1 * w1) - B * (u2 * w2) + C * (u3 * w3) = 0 := by
    rw [← hX1, ← hX2, ← hX3, hA, hB, hC]
    linear_combination D * hX0
  have eY : A * (v1 * w1) - B * (v2 * w2) + C * (v3 * w3) = 0 := by
    rw [← hY1, ← hY2, ← hY3, hA, hB, hC]
    linear_combination D * hY0
  have z1 : (A * w1) * ((u2 - u1) * (v3 - v1) - (v2 - v1) * (u3 - u1)) = 0 := by
    linear_combination (u2 * v3 - u3 * v2) * eW + (v2 - v3) * eX + (u3 - u2) * eY
  have z2 : (B * w2) * ((u2 - u1) * (v3 - v1) - (v2 - v1) * (u3 - u1)) = 0 := by
    linear_combination (u1 * v3 - u3 * v1) * eW + (v1 - v3) * eX + (u3 - u1) * eY
  have z3 : (C * w3) * ((u2 - u1) * (v3 - v1) - (v2 - v1) * (u3 - u1)) = 0 := by
    linear_combination (u1 * v2 - u2 * v1) * eW + (v1 - v2) * eX + (u2 - u1) * eY
  have y1' : w1 = 0 := by
    rcases mul_eq_zero.1 z1 with h | h
    · rcases mul_eq_zero.1 h with h | h
      · exact absurd h s023
      · exact h
    · exact absurd h t123
  have y2' : w2 = 0 := by
    rcases mul_eq_zero.1 z2 with h | h
    · rcases mul_eq_zero.1 h with h | h
      · exact absurd h s013
      · exact h
    · exact absurd h t123
  have y3' : w3 = 0 := by
    rcases mul_eq_zero.1 z3 with h | h
    · rcases mul_eq_zero.1 h with h | h
      · exact absurd h s012
      · exact h
    · exact absurd h t123
  apply s123
  rw [hD]
  rw [hw1] at y1'
  rw [hw2] at y2'
  rw [hw3] at y3'
  linear_combination (x2 * y3 - x3 * y2) * y1' + (x3 * y1 - x1 * y3) * y2' + (x1 * y2 - x2 * y1) * y3'

theorem solved_cells {M : Nat → Nat → α} {y : Cells α} (h : Solved R M 0 y) : ∃ X, y = cells8 X := by
  obtain ⟨hl, X, hX⟩ := h
  refine ⟨X, List.ext_getElem? fun i => ?_⟩
  by_cases hi : i < 8
  · rw [(hX i (by omega) hi).1]
    simp [cells8, hi]
  · rw [List.getElem?_eq_none (by omega), List.getElem?_eq_none (by simp [cells8]; omega)]

end FlatCV
