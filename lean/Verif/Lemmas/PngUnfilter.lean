/-
The rows of the PNG decoder: the filters are undone as RFC 2083 says.
-/
import Verif.Model.PngLoad
import Verif.Spec.PngDecode
import Verif.Lemmas.Mem
import Mathlib.Data.List.GetD

namespace FlatCV
open Model Png

/-! ### The specification of a row -/

theorem predict_le {t a b c : Nat} (h : t ≤ 4) : ∃ p, predict t a b c = some p := by
  have : t = 0 ∨ t = 1 ∨ t = 2 ∨ t = 3 ∨ t = 4 := by omega
  rcases this with rfl | rfl | rfl | rfl | rfl <;> exact ⟨_, rfl⟩

theorem predict_gt {t a b c : Nat} (h : 4 < t) : predict t a b c = none := by
  obtain ⟨k, rfl⟩ : ∃ k, t = k + 5 := ⟨t - 5, by omega⟩
  rfl

/-- The prediction of byte `k` of a row. -/
def rowPred (bpp t : Nat) (prior row : List UInt8) (k : Nat) : Nat :=
  (predict t (if bpp ≤ k then (row.getD (k - bpp) 0).toNat else 0) (prior.getD k 0).toNat
    (if bpp ≤ k then (prior.getD (k - bpp) 0).toNat else 0)).getD 0

theorem unfilterRow_spec {bpp t : Nat} (ht : t ≤ 4) (hb : 0 < bpp) (prior : List UInt8) (l done : List UInt8) :
    ∃ row, unfilterRow bpp t prior done l = some row ∧ row.length = done.length + l.length ∧ (∀ k, k < done.length → row.getD k 0 = done.getD k 0) ∧
      ∀ k, k < l.length → row.getD (done.length + k) 0 = UInt8.ofNat ((l.getD k 0).toNat + rowPred bpp t prior row (done.length + k)) := by
  induction l generalizing done with
  | nil => exact ⟨done, rfl, rfl, fun _ _ => rfl, fun k hk => absurd hk (by simp)⟩
  | cons v l ih =>
    obtain ⟨p, hp⟩ := predict_le (a := if bpp ≤ done.length then (done.getD (done.length - bpp) 0).toNat else 0) (b := (prior.getD done.length 0).toNat)
      (c := if bpp ≤ done.length then (prior.getD (done.length - bpp) 0).toNat else 0) ht
    obtain ⟨row, h1, h2, h3, h4⟩ := ih (done ++ [UInt8.ofNat (v.toNat + p)])
    rw [List.length_append, List.length_singleton] at h2 h3 h4
    refine ⟨row, ?_, by rw [h2, List.length_cons]; omega, fun k hk => ?_, fun k hk => ?_⟩
    · rw [unfilterRow, unfilterByte]
      simp only [hp, Option.map_some]
      exact h1
    · rw [h3 k (by omega), List.getD_append _ _ _ _ hk]
    · cases k with
      | zero =>
        rw [Nat.add_zero, h3 _ (by omega), List.getD_append_right _ _ _ _ le_rfl, Nat.sub_self, List.getD_cons_zero, List.getD_cons_zero, rowPred]
        have e : (if bpp ≤ done.length then (row.getD (done.length - bpp) 0).toNat else 0)
            = if bpp ≤ done.length then (done.getD (done.length - bpp) 0).toNat else 0 := by
          split_ifs with hk
          · rw [h3 _ (by omega), List.getD_append _ _ _ _ (by omega)]
          · rfl
        rw [e, hp]
        rfl
      | succ k =>
        have := h4 k (by simpa using hk)
        rw [show done.length + 1 + k = done.length + (k + 1) by omega] at this
        rw [List.getD_cons_succ, this]

theorem unfilterRow_bad {bpp t : Nat} (ht : 4 < t) (prior l : List UInt8) (hl : l ≠ []) : unfilterRow bpp t prior [] l = none := by
  cases l with
  | nil => exact absurd rfl hl
  | cons v l => simp only [unfilterRow, unfilterByte, predict_gt ht, Option.map_none]

theorem stbPaeth_eq (a b c : Nat) : (stbPaeth a b c).toNat = paeth a b c := by
  simp only [stbPaeth, paeth]
  split_ifs <;> omega

theorem paeth_up (b : Nat) : paeth 0 b 0 = b := by
  simp only [paeth]
  split_ifs <;> omega

theorem paeth_left (a : Nat) : paeth a 0 0 = a := by
  simp only [paeth]
  split_ifs <;> omega

/-! ### The loops -/

/-- The state of the filter buffer when the first `k` bytes of the row are there. -/
def RowInv (row : List UInt8) (cur nk : Nat) (f0 : Cells UInt8) (k : Nat) (f : Cells UInt8) : Prop :=
  f.length = f0.length ∧ (∀ i, i < k → f[cur + i]? = some (some (row.getD i 0))) ∧ ∀ i, (i < cur ∨ cur + nk ≤ i) → f[i]? = f0[i]?

theorem addLoop {row l : List UInt8} {f0 f : Cells UInt8} {a : RowArgs} {lo hi : Nat} {P : Nat → Nat} {body : Nat → Cells UInt8 → CM (Cells UInt8)}
    (hraw : ∀ k, k < a.nk → a.raw[a.pos + k]? = some (some (l.getD k 0))) (hlen : a.cur + a.nk ≤ f0.length)
    (hrow : ∀ k, k < a.nk → row.getD k 0 = UInt8.ofNat ((l.getD k 0).toNat + P k)) (hlo : lo ≤ hi) (hhi : hi ≤ a.nk)
    (h0 : RowInv row a.cur a.nk f0 lo f)
    (hb : ∀ k, lo ≤ k → k < hi → ∀ f, RowInv row a.cur a.nk f0 k f → body k f = addByte a k (P k) f) :
    Ok (forFrom lo hi f body) (RowInv row a.cur a.nk f0 hi) := by
  rw [forFrom]
  refine (forN_ok (I := fun i f => RowInv row a.cur a.nk f0 (lo + i) f) h0 ?_).mono ?_
  · intro i hi' f hf
    rw [hb _ (by omega) (by omega) f hf, addByte, rd_ok (hraw _ (by omega)), ok_bind, wr_ok (by rw [hf.1]; omega), ← hrow _ (by omega)]
    obtain ⟨h1, h2, h3⟩ := hf
    refine Ok.pure ⟨by rw [List.length_set, h1], fun k hk => ?_, fun k hk => ?_⟩
    · rw [List.getElem?_set]
      split_ifs with e1 e2
      · rw [show k = lo + i by omega]
      · omega
      · exact h2 k (by omega)
    · rw [List.getElem?_set, if_neg (by omega), h3 k hk]
  · intro f hf
    rwa [show lo + (hi - lo) = hi by omega] at hf

theorem forN_forFrom {σ : Type} (n : Nat) (s : σ) (body : Nat → σ → CM σ) : forN n s body = forFrom 0 n s body := by
  rw [forFrom]
  exact forN_congr fun i _ s => by rw [Nat.zero_add]

/-- How the first row is filtered. -/
def rowKind (j t : Nat) : Nat := if j = 0 then [0, 1, 0, 5, 1].getD t 0 else t

theorem rowFilter_ok {j t : Nat} (ht : t ≤ 4) : rowFilter j t = .ok (rowKind j t) := by
  have : t = 0 ∨ t = 1 ∨ t = 2 ∨ t = 3 ∨ t = 4 := by omega
  rw [rowFilter, rowKind]
  split_ifs
  · rcases this with rfl | rfl | rfl | rfl | rfl <;> rfl
  · rfl

/-- A row: `prior` is the row before, or zeros for the first one. -/
theorem filterRow_ok {prior l row : List UInt8} {f0 : Cells UInt8} {a : RowArgs} {j t : Nat} (ht : t ≤ 4) (hfb : 0 < a.fb) (hnk : a.fb ≤ a.nk)
    (hraw : ∀ k, k < a.nk → a.raw[a.pos + k]? = some (some (l.getD k 0))) (hlen : a.cur + a.nk ≤ f0.length) (hll : l.length = a.nk)
    (hpr : a.prior + a.nk ≤ a.cur ∨ a.cur + a.nk ≤ a.prior)
    (hp0 : j = 0 → ∀ k, prior.getD k 0 = 0) (hp1 : j ≠ 0 → ∀ k, k < a.nk → f0[a.prior + k]? = some (some (prior.getD k 0)))
    (hrow : unfilterRow a.fb t prior [] l = some row) :
    Ok (filterRow (rowKind j t) a f0) (RowInv row a.cur a.nk f0 a.nk) := by
  obtain ⟨row', h1, h2, _, h4⟩ := unfilterRow_spec ht hfb prior l []
  rw [hrow] at h1
  cases h1
  simp only [List.length_nil, Nat.zero_add] at h4
  rw [hll] at h4
  have hI0 : RowInv row a.cur a.nk f0 0 f0 := ⟨rfl, fun i hi => absurd hi (by omega), fun _ _ => rfl⟩
  have hleft : ∀ k, a.fb ≤ k → k < a.nk → ∀ f, RowInv row a.cur a.nk f0 k f → rd f (a.cur + k - a.fb) = .ok (row.getD (k - a.fb) 0) := by
    intro k h1 h2 f hf
    rw [show a.cur + k - a.fb = a.cur + (k - a.fb) by omega]
    exact rd_ok (hf.2.1 _ (by omega))
  have hup : j ≠ 0 → ∀ k, k < a.nk → ∀ i f, RowInv row a.cur a.nk f0 i f → rd f (a.prior + k) = .ok (prior.getD k 0) := by
    intro hj k hk i f hf
    rw [rd_ok]
    rw [hf.2.2 _ (by omega)]
    exact hp1 hj k hk
  have hul : j ≠ 0 → ∀ k, a.fb ≤ k → k < a.nk → ∀ i f, RowInv row a.cur a.nk f0 i f → rd f (a.prior + k - a.fb) = .ok (prior.getD (k - a.fb) 0) := by
    intro hj k h1 hk i f hf
    rw [show a.prior + k - a.fb = a.prior + (k - a.fb) by omega]
    exact hup hj _ (by omega) i f hf
  have htt : t = 0 ∨ t = 1 ∨ t = 2 ∨ t = 3 ∨ t = 4 := by omega
  rcases Nat.eq_zero_or_pos j with hj | hj
  · have hz := hp0 hj
    rw [rowKind, if_pos hj]
    have hnone : (∀ k, rowPred a.fb t prior row k = 0) → Ok (copyBytes a a.nk f0) (RowInv row a.cur a.nk f0 a.nk) := by
      intro hp
      rw [copyBytes, forN_forFrom]
      exact addLoop (P := fun _ => 0) hraw hlen (fun k hk => by rw [h4 k hk, hp k]) (by omega) le_rfl hI0 fun k _ _ f hf => rfl
    have hsub : (∀ k, rowPred a.fb t prior row k = if a.fb ≤ k then (row.getD (k - a.fb) 0).toNat else 0) →
        Ok (filterSub a f0) (RowInv row a.cur a.nk f0 a.nk) := by
      intro hp
      rw [filterSub, copyBytes, forN_forFrom]
      refine Ok.bind (addLoop (P := rowPred a.fb t prior row) hraw hlen h4 (by omega) hnk hI0 fun k _ h f hf => by rw [hp, if_neg (by omega)]) ?_
      intro f hf
      exact addLoop (P := rowPred a.fb t prior row) hraw hlen h4 hnk le_rfl hf fun k h1 h2 f hf => by rw [hleft k h1 h2 f hf, ok_bind, hp, if_pos h1]
    rcases htt with rfl | rfl | rfl | rfl | rfl
    · exact hnone fun k => rfl
    · exact hsub fun k => rfl
    · exact hnone fun k => by simp only [rowPred, predict, hz]; rfl
    · show Ok (filterAvgFirst a f0) _
      have hp : ∀ k, rowPred a.fb 3 prior row k = (if a.fb ≤ k then (row.getD (k - a.fb) 0).toNat else 0) / 2 := fun k => by
        simp only [rowPred, predict, hz]; simp
      rw [filterAvgFirst, copyBytes, forN_forFrom]
      refine Ok.bind (addLoop (P := rowPred a.fb 3 prior row) hraw hlen h4 (by omega) hnk hI0 fun k _ h f hf => by rw [hp, if_neg (by omega)]) ?_
      intro f hf
      exact addLoop (P := rowPred a.fb 3 prior row) hraw hlen h4 hnk le_rfl hf fun k h1 h2 f hf => by rw [hleft k h1 h2 f hf, ok_bind, hp, if_pos h1]
    · refine hsub fun k => ?_
      simp only [rowPred, predict, hz, Option.getD_some]
      simp only [show (0 : UInt8).toNat = 0 from rfl, ite_self, paeth_left]
  · have hj' : j ≠ 0 := by omega
    rw [rowKind, if_neg hj']
    rcases htt with rfl | rfl | rfl | rfl | rfl
    · show Ok (copyBytes a a.nk f0) _
      rw [copyBytes, forN_forFrom]
      exact addLoop (P := fun _ => 0) hraw hlen (fun k hk => by rw [h4 k hk]; rfl) (by omega) le_rfl hI0 fun k _ _ f hf => rfl
    · show Ok (filterSub a f0) _
      rw [filterSub, copyBytes, forN_forFrom]
      have hp : ∀ k, rowPred a.fb 1 prior row k = if a.fb ≤ k then (row.getD (k - a.fb) 0).toNat else 0 := fun k => rfl
      refine Ok.bind (addLoop (P := rowPred a.fb 1 prior row) hraw hlen h4 (by omega) hnk hI0 fun k _ h f hf => by rw [hp, if_neg (by omega)]) ?_
      intro f hf
      exact addLoop (P := rowPred a.fb 1 prior row) hraw hlen h4 hnk le_rfl hf fun k h1 h2 f hf => by rw [hleft k h1 h2 f hf, ok_bind, hp, if_pos h1]
    · show Ok (filterUp a a.nk f0) _
      rw [filterUp, forN_forFrom]
      exact addLoop (P := rowPred a.fb 2 prior row) hraw hlen h4 (by omega) le_rfl hI0 fun k _ h f hf => by rw [hup hj' k h k f hf, ok_bind]; rfl
    · show Ok (filterAvg a f0) _
      have hp : ∀ k, rowPred a.fb 3 prior row k = ((if a.fb ≤ k then (row.getD (k - a.fb) 0).toNat else 0) + (prior.getD k 0).toNat) / 2 := fun k => rfl
      rw [filterAvg, forN_forFrom]
      refine Ok.bind (addLoop (P := rowPred a.fb 3 prior row) hraw hlen h4 (by omega) hnk hI0 fun k _ h f hf => by
        rw [hup hj' k (by omega) k f hf, ok_bind, hp, if_neg (by omega), Nat.zero_add]) ?_
      intro f hf
      exact addLoop (P := rowPred a.fb 3 prior row) hraw hlen h4 hnk le_rfl hf fun k h1 h2 f hf => by
        rw [hup hj' k h2 k f hf, ok_bind, hleft k h1 h2 f hf, ok_bind, hp, if_pos h1, Nat.add_comm]
    · show Ok (filterPaeth a f0) _
      have hp : ∀ k, rowPred a.fb 4 prior row k = paeth (if a.fb ≤ k then (row.getD (k - a.fb) 0).toNat else 0) (prior.getD k 0).toNat
          (if a.fb ≤ k then (prior.getD (k - a.fb) 0).toNat else 0) := fun k => rfl
      rw [filterPaeth, filterUp, forN_forFrom]
      refine Ok.bind (addLoop (P := rowPred a.fb 4 prior row) hraw hlen h4 (by omega) hnk hI0 fun k _ h f hf => by
        rw [hup hj' k (by omega) k f hf, ok_bind, hp, if_neg (by omega), if_neg (by omega)]
        rw [paeth_up]) ?_
      intro f hf
      exact addLoop (P := rowPred a.fb 4 prior row) hraw hlen h4 hnk le_rfl hf fun k h1 h2 f hf => by
        rw [hleft k h1 h2 f hf, ok_bind, hup hj' k h2 k f hf, ok_bind, hul hj' k h1 h2 k f hf, ok_bind, stbPaeth_eq, hp, if_pos h1, if_pos h1]

end FlatCV
