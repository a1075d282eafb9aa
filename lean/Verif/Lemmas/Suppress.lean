/-
Corner peaks: suppression of close candidates, and the whole call.
-/
import Verif.Lemmas.Peaks

namespace FlatCV
open Model Spec

/-! ### Keeping the elements that are not flagged -/

/-- The elements whose flag is not set. -/
def keep {α : Type} : List α → List Bool → List α
  | c :: C, r :: R => if r then keep C R else c :: keep C R
  | _, _ => []

theorem keep_sublist {α : Type} (C : List α) (R : List Bool) : (keep C R).Sublist C := by
  induction C generalizing R with
  | nil => simp [keep]
  | cons c C ih =>
    cases R with
    | nil => simp [keep]
    | cons r R =>
      unfold keep
      split
      · exact (ih R).cons c
      · exact (ih R).cons_cons c

theorem mem_keep {α : Type} {C : List α} {R : List Bool} {p : α} :
    p ∈ keep C R ↔ ∃ k : Nat, C[k]? = some p ∧ R[k]? = some false := by
  induction C generalizing R with
  | nil => simp [keep]
  | cons c C ih =>
    cases R with
    | nil => simp [keep]
    | cons r R =>
      unfold keep
      constructor
      · intro hm
        split at hm
        · obtain ⟨k, h1, h2⟩ := ih.1 hm
          exact ⟨k + 1, h1, h2⟩
        · rename_i hr
          rcases List.mem_cons.1 hm with rfl | hm
          · exact ⟨0, rfl, by simpa using hr⟩
          · obtain ⟨k, h1, h2⟩ := ih.1 hm
            exact ⟨k + 1, h1, h2⟩
      · rintro ⟨k, h1, h2⟩
        cases k with
        | zero =>
          simp only [List.getElem?_cons_zero, Option.some.injEq] at h1 h2
          subst h1 h2
          simp
        | succ k =>
          have := ih.2 ⟨k, h1, h2⟩
          split
          · exact this
          · exact List.mem_cons_of_mem _ this

theorem keep_pairwise {α : Type} {C : List α} {R : List Bool} {S : α → α → Prop}
    (h : ∀ (a b : Nat) p q, a < b → C[a]? = some p → C[b]? = some q → R[a]? = some false →
      R[b]? = some false → S p q) : (keep C R).Pairwise S := by
  induction C generalizing R with
  | nil => simp [keep]
  | cons c C ih =>
    cases R with
    | nil => simp [keep]
    | cons r R =>
      have ih' := ih (R := R) fun a b p q hab h1 h2 h3 h4 =>
        h (a + 1) (b + 1) p q (by omega) h1 h2 h3 h4
      unfold keep
      split
      · exact ih'
      · rename_i hr
        refine List.pairwise_cons.2 ⟨?_, ih'⟩
        intro q hq
        obtain ⟨k, h1, h2⟩ := mem_keep.1 hq
        exact h 0 (k + 1) c q (by omega) rfl h1 (by simpa using hr) h2

theorem keep_split {α : Type} (C : List α) (R : List Bool) (k : Nat) :
    keep C R = keep (C.take k) (R.take k) ++ keep (C.drop k) (R.drop k) := by
  induction k generalizing C R with
  | zero => cases C <;> simp [keep]
  | succ k ih =>
    cases C with
    | nil => simp [keep]
    | cons c C =>
      cases R with
      | nil => simp [keep]
      | cons r R =>
        simp only [List.take_succ_cons, List.drop_succ_cons]
        rw [keep, keep, ih C R]
        split <;> simp

theorem keep_take_succ {α : Type} {C : List α} {R : List Bool} {k : Nat} {p : α} {r : Bool}
    (hC : C[k]? = some p) (hR : R[k]? = some r) :
    keep (C.take (k + 1)) (R.take (k + 1))
      = keep (C.take k) (R.take k) ++ (if r then [] else [p]) := by
  induction k generalizing C R with
  | zero =>
    cases C with
    | nil => cases hC
    | cons c C =>
      cases R with
      | nil => cases hR
      | cons r' R =>
        simp only [List.getElem?_cons_zero, Option.some.injEq] at hC hR
        subst hC hR
        simp [keep]
  | succ k ih =>
    cases C with
    | nil => cases hC
    | cons c C =>
      cases R with
      | nil => cases hR
      | cons r' R =>
        have := ih (C := C) (R := R) hC hR
        simp only [List.take_succ_cons] at this ⊢
        rw [keep, this, keep]
        split <;> simp

theorem keep_take_len {α : Type} (C : List α) (R : List Bool) (k : Nat) :
    (keep (C.take k) (R.take k)).length ≤ (keep C R).length := by
  rw [keep_split C R k, List.length_append]
  omega

theorem keep_map {α β : Type} (f : α → β) (C : List α) (R : List Bool) :
    keep (C.map f) R = (keep C R).map f := by
  induction C generalizing R with
  | nil => simp [keep]
  | cons c C ih =>
    cases R with
    | nil => simp [keep]
    | cons r R =>
      simp only [List.map_cons, keep, ih]
      split <;> rfl

theorem countKept_ok {α : Type} {C : List α} {R : List Bool} (hl : R.length = C.length)
    (hn : C.length < 4294967296) :
    countKept C.length (R.map some) = .ok (keep C R).length := by
  unfold countKept
  apply Ok.eq
  refine (forN_ok (fun i n => n = (keep (C.take i) (R.take i)).length) (by simp [keep]) ?_).mono ?_
  · intro i hi n hI
    have hC := List.getElem?_eq_getElem hi
    have hR := List.getElem?_eq_getElem (l := R) (i := i) (by omega)
    rw [rd_map_some, rdIn_ok hR, ok_bind, keep_take_succ hC hR]
    have hle := (keep_sublist (C.take i) (R.take i)).length_le
    rw [List.length_take] at hle
    generalize R[i] = r
    cases r with
    | true => exact Ok.pure' (by simpa using hI)
    | false =>
      refine Ok.pure' ?_
      rw [hI, u32_eq (by omega)]
      simp
  · intro n hI
    rw [List.take_length, ← hl, List.take_length] at hI
    exact hI

theorem copyKept_ok {C : List Point2D} {k : Nat} {R : List Bool} (hl : R.length = C.length)
    (hn : C.length < 4294967296) :
    copyKept C.length (prefixCells C k) (R.map some) (List.replicate (keep C R).length none)
      = .ok ((keep C R).map some, (keep C R).length) := by
  unfold copyKept
  apply Ok.eq
  refine (forN_ok (fun i s => s = (prefixCells (keep (C.take i) (R.take i))
      ((keep C R).length - (keep (C.take i) (R.take i)).length),
      (keep (C.take i) (R.take i)).length)) (by simp [keep, prefixCells]) ?_).mono ?_
  · intro i hi s hI
    have hC := List.getElem?_eq_getElem hi
    have hR := List.getElem?_eq_getElem (l := R) (i := i) (by omega)
    rw [rd_map_some, rdIn_ok hR, ok_bind]
    have hsucc := keep_take_succ hC hR
    have hle := keep_take_len C R (i + 1)
    have hlen := (keep_sublist (C.take i) (R.take i)).length_le
    rw [List.length_take] at hlen
    rw [hsucc] at hle ⊢
    generalize R[i] = r at hle
    cases r with
    | true => exact Ok.pure' (by simpa using hI)
    | false =>
      simp only [Bool.false_eq_true, if_false, List.length_append, List.length_cons,
        List.length_nil] at hle ⊢
      rw [rd_prefix hC, ok_bind, hI]
      simp only
      rw [push_ok _ (by omega), ok_bind, u32_eq (by omega)]
      refine Ok.pure' ?_
      congr 2
  · intro s hI
    rw [List.take_length, ← hl, List.take_length] at hI
    rw [hI]
    simp [prefixCells]

/-! ### Suppression -/

/-- What holds of the flags once the candidates before `i` have been processed. -/
structure SInv (C : List (Nat × Nat)) (Cl : Nat × Nat → Nat × Nat → Prop) (V : Nat × Nat → UInt8)
    (i : Nat) (R : List Bool) : Prop where
  len : R.length = C.length
  sep : ∀ (a b : Nat) p q, a < b → a < i → C[a]? = some p → C[b]? = some q → R[a]? = some false →
    R[b]? = some false → ¬ Cl p q
  why : ∀ (k : Nat) p, C[k]? = some p → R[k]? = some true → ∃ (k' : Nat) (q : Nat × Nat), C[k']? = some q ∧
    ((k' < k ∧ Cl q p ∧ V p ≤ V q) ∨ (k < k' ∧ Cl p q ∧ V p < V q))

section
variable {C : List (Nat × Nat)} {Cl : Nat × Nat → Nat × Nat → Prop} {V : Nat × Nat → UInt8}
  {w m : Nat} {d : List UInt8} {cap : Nat}

theorem flag_set {R : List Bool} {j k : Nat} {b : Bool} (h : (R.set j true)[k]? = some b) :
    (k = j ∧ b = true) ∨ R[k]? = some b := by
  rw [List.getElem?_set] at h
  by_cases e : j = k
  · subst e
    simp only [if_true] at h
    by_cases hl : j < R.length
    · rw [if_pos hl] at h
      cases h
      exact Or.inl ⟨rfl, rfl⟩
    · rw [if_neg hl] at h
      cases h
  · rw [if_neg e] at h
    exact Or.inr h

theorem SInv.reject {i j : Nat} {R : List Bool} {p : Nat × Nat} (hI : SInv C Cl V i R)
    (hp : C[j]? = some p)
    (hw : ∃ (k' : Nat) (q : Nat × Nat), C[k']? = some q ∧ ((k' < j ∧ Cl q p ∧ V p ≤ V q) ∨ (j < k' ∧ Cl p q ∧ V p < V q))) :
    SInv C Cl V i (R.set j true) := by
  refine ⟨by simpa using hI.len, ?_, ?_⟩
  · intro a b p q hab hai ha hb h1 h2
    rcases flag_set h1 with ⟨_, h⟩ | h1
    · cases h
    rcases flag_set h2 with ⟨_, h⟩ | h2
    · cases h
    exact hI.sep a b p q hab hai ha hb h1 h2
  · intro k p' hk hr
    rcases flag_set hr with ⟨rfl, _⟩ | hr
    · rw [hp] at hk
      cases hk
      exact hw
    · exact hI.why k p' hk hr

theorem suppressAll_ok
    (hE : ∀ p ∈ C, ∀ q ∈ C, ∃ D, euclidean_distance (toPt p) (toPt q) = .ok D ∧ (D < (m : ℚ) ↔ Cl p q))
    (hV : ∀ p ∈ C, peakValue w d (toPt p) = .ok (V p)) :
    ∃ R, suppressAll w m d (prefixCells (C.map toPt) cap) C.length
        (List.replicate C.length (some false)) = .ok (R.map some) ∧ SInv C Cl V C.length R := by
  have key : Ok (suppressAll w m d (prefixCells (C.map toPt) cap) C.length
      (List.replicate C.length (some false))) (fun t => ∃ R, t = R.map some ∧ SInv C Cl V C.length R) := by
    unfold suppressAll
    refine forN_ok (fun i t => ∃ R : List Bool, t = R.map some ∧ SInv C Cl V i R)
      ⟨List.replicate C.length false, by simp, by simp, ?_, ?_⟩ ?_
    · intro a b p q _ h
      omega
    · intro k p hk hr
      rw [List.getElem?_replicate] at hr
      split at hr <;> simp at hr
    · rintro i hi t ⟨R, rfl, hI⟩
      obtain ⟨ri, hR⟩ : ∃ r, R[i]? = some r := ⟨_, List.getElem?_eq_getElem (by rw [hI.len]; exact hi)⟩
      have hC := List.getElem?_eq_getElem hi
      rw [rd_map_some, rdIn_ok hR, ok_bind]
      generalize hp : C[i] = p at hC
      have hpm : p ∈ C := by rw [← hp]; exact List.getElem_mem hi
      have next : ∀ R : List Bool, SInv C Cl V i R →
          (R[i]? = some true ∨ ∀ (b : Nat) q, i < b → C[b]? = some q → R[b]? = some false → ¬ Cl p q) →
          SInv C Cl V (i + 1) R := by
        intro R hI h
        refine ⟨hI.len, ?_, hI.why⟩
        intro a b p' q hab hai ha hb h1 h2
        by_cases e : a = i
        · subst e
          rw [hC] at ha
          cases ha
          rcases h with h | h
          · rw [h] at h1; cases h1
          · exact h b q hab hb h2
        · exact hI.sep a b p' q hab (by omega) ha hb h1 h2
      cases ri with
      | true => exact Ok.pure' ⟨R, rfl, next R hI (Or.inl hR)⟩
      | false =>
        simp only [Bool.false_eq_true, if_false]
        refine (forBreak_ok
          (fun j t => ∃ R : List Bool, t = R.map some ∧ SInv C Cl V i R ∧ R[i]? = some false ∧
            ∀ (b : Nat) q, i < b → b < j → C[b]? = some q → R[b]? = some false → ¬ Cl p q)
          (fun t => ∃ R : List Bool, t = R.map some ∧ SInv C Cl V i R ∧ R[i]? = some true)
          ⟨R, rfl, hI, hR, by intro b q h1 h2; omega⟩ ?_).mono ?_
        · rintro j hj1 hj2 t ⟨R, rfl, hI, hRi, hsep⟩
          have hj : j < C.length := by omega
          obtain ⟨rj, hRj⟩ : ∃ r, R[j]? = some r := ⟨_, List.getElem?_eq_getElem (by rw [hI.len]; exact hj)⟩
          have hCj := List.getElem?_eq_getElem hj
          generalize hq : C[j] = q at hCj
          have hqm : q ∈ C := by rw [← hq]; exact List.getElem_mem hj
          unfold suppressPair
          rw [rd_map_some, rdIn_ok hRj, ok_bind]
          have ext : ∀ R' : List Bool, (R'[j]? = some true ∨ ¬ Cl p q) →
              (∀ b : Nat, R'[b]? = some false → R[b]? = some false) →
              ∀ (b : Nat) q', i < b → b < j + 1 → C[b]? = some q' → R'[b]? = some false → ¬ Cl p q' := by
            intro R' h hmono b q' h1 h2 h3 h4
            by_cases e : b = j
            · subst e
              rw [hCj] at h3
              cases h3
              rcases h with h | h
              · rw [h] at h4; cases h4
              · exact h
            · exact hsep b q' h1 (by omega) h3 (hmono b h4)
          cases rj with
          | true =>
            refine Ok.pure' ?_
            exact ⟨R, rfl, hI, hRi, ext R (Or.inl hRj) (fun _ h => h)⟩
          | false =>
            simp only [Bool.false_eq_true, if_false]
            rw [rd_prefix (v := toPt p) (by rw [List.getElem?_map, hC]; rfl), ok_bind,
              rd_prefix (v := toPt q) (by rw [List.getElem?_map, hCj]; rfl), ok_bind]
            obtain ⟨D, hD, hDiff⟩ := hE p hpm q hqm
            rw [hD, ok_bind]
            by_cases hlt : D < (m : ℚ)
            · rw [if_pos hlt, hV p hpm, ok_bind, hV q hqm, ok_bind]
              have hcl := hDiff.1 hlt
              by_cases hv : V p ≥ V q
              · rw [if_pos hv, wr_map_some (by rw [hI.len]; exact hj), ok_bind]
                refine Ok.pure' ?_
                simp only [Bool.false_eq_true, if_false]
                refine ⟨R.set j true, rfl, hI.reject hCj ⟨i, p, hC, Or.inl ⟨by omega, hcl, hv⟩⟩, ?_, ?_⟩
                · rw [List.getElem?_set_ne (by omega)]
                  exact hRi
                · refine ext _ (Or.inl ?_) ?_
                  · rw [List.getElem?_set_self (by rw [hI.len]; exact hj)]
                  · intro b hb
                    rcases flag_set hb with ⟨_, h⟩ | hb
                    · cases h
                    · exact hb
              · rw [if_neg hv, wr_map_some (by rw [hI.len]; exact hi), ok_bind]
                refine Ok.pure' ?_
                simp only [if_true]
                refine ⟨R.set i true, rfl, hI.reject hC ⟨j, q, hCj, Or.inr ⟨by omega, hcl, ?_⟩⟩, ?_⟩
                · exact UInt8.not_le.1 hv
                · rw [List.getElem?_set_self (by rw [hI.len]; exact hi)]
            · rw [if_neg hlt]
              refine Ok.pure' ?_
              exact ⟨R, rfl, hI, hRi, ext R (Or.inr (fun h => hlt (hDiff.2 h))) (fun _ h => h)⟩
        · rintro t (⟨R, rfl, hI, hRi⟩ | ⟨R, rfl, hI, hRi, hsep⟩)
          · exact ⟨R, rfl, next R hI (Or.inl hRi)⟩
          · refine ⟨R, rfl, next R hI (Or.inr ?_)⟩
            intro b q hb hq hr
            refine hsep b q hb ?_ hq hr
            by_contra hc
            rw [List.getElem?_eq_none (by omega)] at hq
            cases hq
  obtain ⟨t, e, R, rfl, hI⟩ := key
  exact ⟨R, e, hI⟩

/-- A first index of maximal value. -/
theorem exists_first_max (f : Nat → Nat) {n : Nat} (hn : 0 < n) :
    ∃ k, k < n ∧ ∀ j, j < n → f j ≤ f k ∧ (j < k → f j < f k) := by
  induction n with
  | zero => omega
  | succ n ih =>
    by_cases h0 : n = 0
    · subst h0
      refine ⟨0, by omega, fun j hj => ?_⟩
      have : j = 0 := by omega
      subst this
      exact ⟨Nat.le_refl _, by omega⟩
    · obtain ⟨k, hk, h⟩ := ih (by omega)
      by_cases hlt : f k < f n
      · refine ⟨n, by omega, fun j hj => ?_⟩
        by_cases e : j = n
        · subst e; exact ⟨Nat.le_refl _, by omega⟩
        · have := h j (by omega)
          exact ⟨by omega, by omega⟩
      · refine ⟨k, by omega, fun j hj => ?_⟩
        by_cases e : j = n
        · subst e; exact ⟨by omega, by omega⟩
        · exact h j (by omega)

/-- Something is kept. -/
theorem SInv.nonempty {i : Nat} {R : List Bool} (hI : SInv C Cl V i R) (hC : C ≠ []) :
    keep C R ≠ [] := by
  have hn : 0 < C.length := List.length_pos_iff.2 hC
  obtain ⟨k, hk, hmax⟩ := exists_first_max (fun j => (V ((C[j]?).getD (0, 0))).toNat) hn
  have hCk := List.getElem?_eq_getElem hk
  obtain ⟨rk, hRk⟩ : ∃ r, R[k]? = some r := ⟨_, List.getElem?_eq_getElem (by rw [hI.len]; exact hk)⟩
  cases rk with
  | false =>
    intro hc
    have : C[k] ∈ keep C R := mem_keep.2 ⟨k, hCk, hRk⟩
    rw [hc] at this
    cases this
  | true =>
    exfalso
    obtain ⟨k', q, hq, h⟩ := hI.why k _ hCk hRk
    have hk' : k' < C.length := by
      by_contra hc
      rw [List.getElem?_eq_none (by omega)] at hq
      cases hq
    have hm := hmax k' hk'
    rw [hq, hCk] at hm
    simp only [Option.getD_some] at hm
    rcases h with ⟨h1, _, h2⟩ | ⟨h1, _, h2⟩
    · have := hm.2 h1
      rw [UInt8.le_iff_toNat_le] at h2
      omega
    · rw [UInt8.lt_iff_toNat_lt] at h2
      omega

end

end FlatCV
