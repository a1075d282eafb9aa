/-
C48–C50: corner peaks.
-/
import Verif.Lemmas.Suppress
import Verif.Lemmas.Dist
import Verif.Spec.Call

namespace FlatCV.Props
open FlatCV Model Spec

variable {P : Plat} {w h : Nat} {d : List UInt8}

/-- The call returns a fresh struct describing points `ps` with `Q ps`, or NULL because an
allocation failed.  Two blocks become live when there are points (the struct and the array), one
otherwise; nothing else changes on the heap. -/
def PeaksReturn (m : HM (Option CornerPeaks)) (Q : List (Nat × Nat) → Prop) : Prop :=
  ∀ hp, HOk m hp fun r h' => match r with
    | none => OutOfMemory hp h'
    | some r => h'.fails = hp.fails ∧ hp.next ≤ h'.next ∧ ∃ ps, Q ps ∧ r.count = ps.length ∧ match r.points with
      | none => ps = [] ∧ h'.live = r.id :: hp.live
      | some b => ps ≠ [] ∧ b.cells = ps.map (fun p => some ((p.1 : ℚ), (p.2 : ℚ))) ∧
          h'.live = r.id :: b.id :: hp.live ∧ r.id ≠ b.id

/-- The call on data that looks like the image `v` through 32-bit indices. -/
theorem corner_peaks_view {v : List UInt8} (hv : View w h d v) (hw : 0 < w) (hh : 0 < h)
    (hw32 : w < 4294967296) (hh32 : h < 4294967296) (hn : w * h < 4294967296)
    (hsz : w * h * 16 ≤ P.szMax) {m : Nat} (hm32 : m < 2 ^ 32) (acc rou : ℚ) :
    PeaksReturn (fcv_corner_peaks P w h (some d) m (.fin acc) (.fin rou)) fun ps =>
      AllQualified w h v acc rou ps ∧ Apart m ps ∧ SuppressedFairly w h v acc rou m ps := by
  have hnpos : 0 < w * h := Nat.mul_pos hw hh
  have hC := peakCandidates_ok (acc := acc) (rou := rou) hv hw32 hh32 hw hh hn
  have hmem : ∀ p, p ∈ cands w h v acc rou ↔ Qualified w h v acc rou p := fun p => mem_cands
  have hsort : (cands w h v acc rou).Pairwise Before := allC_sorted _
  have hlen : (cands w h v acc rou).length < 4294967296 := by
    have h1 := interior_lt hw hh
    have h2 := allC_len (w := w) (h := h) (v := v) (acc := acc) (rou := rou) (h - 2)
    unfold cands
    omega
  generalize cands w h v acc rou = C at *
  obtain ⟨R, hR, hI⟩ := suppressAll_ok (C := C) (Cl := fun p q => dist2 p q < m * m)
    (V := resp w v) (w := w) (m := m) (d := d) (cap := w * h - C.length)
    (fun p hp q hq => by
      have a := (hmem p).1 hp
      have b := (hmem q).1 hq
      exact euclid_ok hn.le hm32 hw32 hh32 a.left a.right a.top a.bottom b.left b.right b.top b.bottom)
    (fun p hp => by
      have a := (hmem p).1 hp
      have := a.right
      have := a.bottom
      exact peakValue_ok hv hw32 hh32 (by omega) (by omega))
  have hcnt := countKept_ok (C := C) hI.len hlen
  have hcopy := copyKept_ok (C := C.map toPt) (k := w * h - C.length) (R := R)
    (by rw [List.length_map]; exact hI.len) (by rw [List.length_map]; exact hlen)
  rw [keep_map, List.length_map, List.length_map] at hcopy
  have hQ : AllQualified w h v acc rou (keep C R) ∧ Apart m (keep C R) ∧
      SuppressedFairly w h v acc rou m (keep C R) := by
    refine ⟨⟨fun p hp => (hmem p).1 ((keep_sublist C R).subset hp), hsort.sublist (keep_sublist C R)⟩,
      ?_, ?_, ?_⟩
    · refine keep_pairwise fun a b p q hab ha hb h1 h2 => ?_
      have ha' : a < C.length := by
        by_contra hc
        rw [List.getElem?_eq_none (by omega)] at ha
        cases ha
      exact Nat.not_lt.1 (hI.sep a b p q hab ha' ha hb h1 h2)
    · intro p hp hnp
      obtain ⟨k, hk, hkp⟩ := List.getElem_of_mem ((hmem p).2 hp)
      have hkC : C[k]? = some p := by rw [List.getElem?_eq_getElem hk, hkp]
      obtain ⟨r, hRk⟩ : ∃ r, R[k]? = some r :=
        ⟨_, List.getElem?_eq_getElem (by rw [hI.len]; exact hk)⟩
      cases r with
      | false => exact absurd (mem_keep.2 ⟨k, hkC, hRk⟩) hnp
      | true =>
        obtain ⟨k', q, hq, hh⟩ := hI.why k p hkC hRk
        have hk' : k' < C.length := by
          by_contra hc
          rw [List.getElem?_eq_none (by omega)] at hq
          cases hq
        have hqk : C[k'] = q := by
          rw [List.getElem?_eq_getElem hk'] at hq
          exact Option.some.inj hq
        have hqm : q ∈ C := by rw [← hqk]; exact List.getElem_mem hk'
        have irr : ∀ p, ¬ Before p p := by
          intro p hp
          unfold Before at hp
          omega
        refine ⟨q, ?_, (hmem q).1 hqm, ?_⟩
        · rintro rfl
          have hne : ∀ i j (hi : i < C.length) (hj : j < C.length), i < j → C[i] = C[j] → False := by
            intro i j hi hj hij e
            have := List.pairwise_iff_getElem.1 hsort i j hi hj hij
            rw [e] at this
            exact irr _ this
          rcases hh with ⟨h1, _⟩ | ⟨h1, _⟩
          · exact hne k' k hk' hk h1 (by rw [hqk, hkp])
          · exact hne k k' hk hk' h1 (by rw [hqk, hkp])
        · have sym : dist2 q p = dist2 p q := by
            have e1 : ((q.1 : Int) - p.1).natAbs = ((p.1 : Int) - q.1).natAbs := by omega
            have e2 : ((q.2 : Int) - p.2).natAbs = ((p.2 : Int) - q.2).natAbs := by omega
            unfold dist2
            rw [e1, e2]
          rcases hh with ⟨_, h1, h2⟩ | ⟨_, h1, h2⟩
          · exact ⟨by rw [← sym]; exact h1, h2⟩
          · exact ⟨h1, UInt8.le_of_lt h2⟩
    · rintro ⟨p, hp⟩
      exact hI.nonempty (fun hc => by
        have := (hmem p).2 hp
        rw [hc] at this
        cases this)
  have hne : C ≠ [] → keep C R ≠ [] := hI.nonempty
  have hnil : C = [] → keep C R = [] := by rintro rfl; rfl
  generalize keep C R = K at *
  generalize hCL : C.length = cl at *
  have hcl0 : cl = 0 ↔ C = [] := by rw [← hCL, List.length_eq_zero_iff]
  intro hp
  have hg1 : ¬ w > P.szMax / h := P.guard_of_mul_le hh (by omega)
  have ez : P.sz (w * h) = w * h := P.sz_eq' (by omega)
  have hg2 : ¬ w * h > P.szMax / 16 := P.guard_of_mul_le (by omega) (by omega)
  have hwh : ¬ (w = 0 ∨ h = 0) := by omega
  generalize hn' : w * h = n at *
  have e1 : ¬ hp.next + 1 + 1 = hp.next := by omega
  unfold HOk fcv_corner_peaks
  simp only [hwh, if_false, hg1, hn', ez, hg2]
  by_cases f0 : hp.fails hp.next = true
  · refine ⟨none, { hp with next := hp.next + 1 }, ?_, ?_⟩
    · simp [hm_bind, malloc, f0]
    · exact ⟨rfl, rfl, by simp, hp.next, by simp, by simp, f0⟩
  simp only [Bool.not_eq_true] at f0
  by_cases c0 : cl = 0
  · have hK := hnil (hcl0.1 c0)
    by_cases f1 : hp.fails (hp.next + 1) = true
    · refine ⟨none, { hp with next := hp.next + 2 }, ?_, ?_⟩
      · simp [hm_bind, malloc, free, use, f0, f1, hC, c0, Except.map]
      · exact ⟨rfl, rfl, by simp, hp.next + 1, by simp, by simp, f1⟩
    simp only [Bool.not_eq_true] at f1
    refine ⟨some ⟨hp.next + 1, none, 0⟩, { hp with next := hp.next + 2, live := (hp.next + 1) :: hp.live },
      ?_, rfl, Nat.le_add_right _ _, K, hQ, ?_, hK, rfl⟩
    · simp [hm_bind, malloc, free, use, f0, f1, hC, c0, Except.map]
    · rw [hK]; rfl
  · have hK := hne (fun hc => c0 (hcl0.2 hc))
    by_cases f1 : hp.fails (hp.next + 1) = true
    · refine ⟨none, { hp with next := hp.next + 2 }, ?_, ?_⟩
      · simp [hm_bind, malloc, calloc, free, use, f0, f1, hC, c0, Except.map]
      · exact ⟨rfl, rfl, by simp, hp.next + 1, by simp, by simp, f1⟩
    simp only [Bool.not_eq_true] at f1
    by_cases f2 : hp.fails (hp.next + 2) = true
    · refine ⟨none, { hp with next := hp.next + 3 }, ?_, ?_⟩
      · simp [hm_bind, malloc, calloc, free, use, f0, f1, f2, hC, hR, hcnt, c0, Except.map]
      · exact ⟨rfl, rfl, by simp, hp.next + 2, by simp, by simp, f2⟩
    simp only [Bool.not_eq_true] at f2
    by_cases f3 : hp.fails (hp.next + 3) = true
    · refine ⟨none, { hp with next := hp.next + 4 }, ?_, ?_⟩
      · simp [hm_bind, malloc, calloc, free, use, f0, f1, f2, f3, hC, hR, hcnt, hcopy, c0, Except.map, e1]
      · exact ⟨rfl, rfl, by simp, hp.next + 3, by simp, by simp, f3⟩
    simp only [Bool.not_eq_true] at f3
    refine ⟨some ⟨hp.next + 3, some ⟨hp.next + 2, (K.map toPt).map some⟩, K.length⟩,
      { hp with next := hp.next + 4, live := (hp.next + 3) :: (hp.next + 2) :: hp.live },
      ?_, rfl, Nat.le_add_right _ _, K, hQ, rfl, hK, ?_, rfl, by simp⟩
    · simp [hm_bind, malloc, calloc, free, use, f0, f1, f2, f3, hC, hR, hcnt, hcopy, c0, Except.map, e1]
    · rw [List.map_map]; rfl

theorem PeaksReturn.mono {m : HM (Option CornerPeaks)} {Q Q' : List (Nat × Nat) → Prop}
    (hm : PeaksReturn m Q) (hQ : ∀ ps, Q ps → Q' ps) : PeaksReturn m Q' := by
  intro hp
  obtain ⟨r, h', e, hq⟩ := hm hp
  refine ⟨r, h', e, ?_⟩
  cases r with
  | none => exact hq
  | some r =>
    obtain ⟨h1, h0, ps, h2, h3⟩ := hq
    exact ⟨h1, h0, ps, hQ ps h2, h3⟩

/-- The call on an image of at most `2^31` pixels, for all finite thresholds and every distance. -/
theorem corner_peaks_correct (im : Img P w h 2 d) (hn : w * h ≤ 2 ^ 31) (hsz : w * h * 16 ≤ P.szMax)
    {m : Nat} (hm : IsU32 m) (acc rou : ℚ) :
    PeaksReturn (fcv_corner_peaks P w h (some d) m (.fin acc) (.fin rou)) fun ps =>
      AllQualified w h d acc rou ps ∧ Apart m ps ∧ SuppressedFairly w h d acc rou m ps :=
  corner_peaks_view (view_self im.len (by omega)) im.w_pos im.h_pos im.w_u32 im.h_u32 (by omega) hsz
    hm acc rou

/-- What 32-bit indices make of the data. -/
def wrapped (w h : Nat) (d : List UInt8) : List UInt8 :=
  mkImg w h 2 fun x y c => d.getD (u32 (u32 (u32 (u32 (y * w) + x) * 2) + c)) 0

theorem view_wrapped (hd : d.length = w * h * 2) (hs : 4294967296 ≤ w * h * 2) :
    View w h d (wrapped w h d) := by
  intro x y c hx hy hc
  unfold wrapped
  rw [px_mkImg hx hy hc]
  have hlt := u32_lt (u32 (u32 (u32 (y * w) + x) * 2) + c)
  generalize u32 (u32 (u32 (u32 (y * w) + x) * 2) + c) = k at *
  have hk : k < d.length := by omega
  rw [rdIn_ok (List.getElem?_eq_getElem hk), List.getD_eq_getElem?_getD,
    List.getElem?_eq_getElem hk]
  rfl

/-- C48: any two returned points are at least `m` apart. -/
theorem corner_peaks_apart (im : Img P w h 2 d) (hn : w * h < 2 ^ 32) (hsz : w * h * 16 ≤ P.szMax)
    {m : Nat} (hm : IsU32 m) (acc rou : ℚ) :
    PeaksReturn (fcv_corner_peaks P w h (some d) m (.fin acc) (.fin rou)) (Apart m) := by
  by_cases hs : w * h * 2 ≤ 4294967296
  · exact (corner_peaks_correct im (by omega) hsz hm acc rou).mono fun _ h => h.2.1
  · exact (corner_peaks_view (view_wrapped im.len (by omega)) im.w_pos im.h_pos im.w_u32 im.h_u32 hn
      hsz hm acc rou).mono fun _ h => h.2.1

/-- C49: the returned points are qualified local maxima, distinct and in reading order. -/
theorem corner_peaks_qualified (im : Img P w h 2 d) (hn : w * h ≤ 2 ^ 31)
    (hsz : w * h * 16 ≤ P.szMax) {m : Nat} (hm : IsU32 m) (acc rou : ℚ) :
    PeaksReturn (fcv_corner_peaks P w h (some d) m (.fin acc) (.fin rou))
      (AllQualified w h d acc rou) :=
  (corner_peaks_correct im hn hsz hm acc rou).mono fun _ h => h.1

/-- C50: missing maxima are close to another one at least as strong, and not all are missing. -/
theorem corner_peaks_fair (im : Img P w h 2 d) (hn : w * h ≤ 2 ^ 31)
    (hsz : w * h * 16 ≤ P.szMax) {m : Nat} (hm : IsU32 m) (acc rou : ℚ) :
    PeaksReturn (fcv_corner_peaks P w h (some d) m (.fin acc) (.fin rou))
      (SuppressedFairly w h d acc rou m) :=
  (corner_peaks_correct im hn hsz hm acc rou).mono fun _ h => h.2.2

/-- NULL data, a zero dimension and thresholds that are not finite are rejected. -/
theorem corner_peaks_rejects (hp : Heap) {data : Option (List UInt8)} {m : Nat} {acc rou : Dbl}
    (hbad : data = none ∨ w = 0 ∨ h = 0 ∨ (∀ q, acc ≠ .fin q) ∨ (∀ q, rou ≠ .fin q)) :
    Rejects (fcv_corner_peaks P w h data m acc rou) hp := by
  unfold Rejects fcv_corner_peaks
  cases data with
  | none => rfl
  | some d =>
    simp only
    by_cases hz : w = 0 ∨ h = 0
    · rw [if_pos hz]; rfl
    · rw [if_neg hz]
      rcases hbad with hb | hb | hb | hb | hb
      · cases hb
      · exact absurd (Or.inl hb) hz
      · exact absurd (Or.inr hb) hz
      · cases acc with
        | fin q => exact absurd rfl (hb q)
        | nan => rfl
        | inf _ => rfl
      · cases rou with
        | fin q => exact absurd rfl (hb q)
        | nan => cases acc <;> rfl
        | inf _ => cases acc <;> rfl

/-! ### Images of more than `2^31` pixels -/

/-- A 65536 × 32771 response image in which only pixel (1, 1) is not zero. -/
def tallPeak : List UInt8 := mkImg 65536 32771 2 fun x y _ => if x = 1 ∧ y = 1 then 255 else 0

theorem tallPeak_img : Img Plat.lp64 65536 32771 2 tallPeak :=
  ⟨by decide, by decide, by decide, by decide, mkImg_length .., by
    unfold tallPeak
    rw [mkImg_length]
    decide⟩

theorem tallPeak_low {x y : Nat} (hx : x < 65536) (hy : y < 32771) (hne : ¬ (x = 1 ∧ y = 1)) :
    resp 65536 tallPeak (x, y) = 0 := by
  unfold resp tallPeak
  rw [px_mkImg hx hy (by omega), if_neg hne]

theorem tallPeak_alias {c : Nat} (hc : c < 2) :
    px 65536 2 (wrapped 65536 32771 tallPeak) 1 32769 c = 255 := by
  unfold wrapped
  rw [px_mkImg (by omega) (by omega) hc]
  have e : u32 (u32 (u32 (u32 (32769 * 65536) + 1) * 2) + c) = (1 * 65536 + 1) * 2 + c := by
    unfold u32
    omega
  have e2 : tallPeak[(1 * 65536 + 1) * 2 + c]? = some 255 := by
    have := getElem?_px (d := tallPeak) (x := 1) (y := 1) (c := c) (w := 65536) (h := 32771) (ch := 2)
      (by unfold tallPeak; exact mkImg_length ..) (by omega) (by omega) hc
    rw [this]
    unfold tallPeak
    rw [px_mkImg (by omega) (by omega) hc]
    rfl
  rw [e, List.getD_eq_getElem?_getD, e2]
  rfl

theorem tallPeak_qualified :
    Qualified 65536 32771 (wrapped 65536 32771 tallPeak) 0 0 (1, 32769) := by
  have hu : (0 : ℚ) < unitOf 255 := by
    have e : unitOf 255 = Fmt.b64.rnd ((1 : ℤ) : ℚ) := by
      unfold unitOf
      congr 1
      have : (255 : UInt8).toNat = 255 := rfl
      rw [this]
      norm_num
    rw [e, rnd64_int (by norm_num)]
    norm_num
  have h0 := tallPeak_alias (c := 0) (by omega)
  have h1 := tallPeak_alias (c := 1) (by omega)
  refine ⟨by decide, by decide, by decide, by decide, ?_, ?_, ?_, ?_⟩
  · unfold resp; rw [h0]; exact hu
  · unfold roundness; rw [h1]; exact hu
  · unfold resp; rw [h0]; decide
  · intro q _ _ _ _
    have : resp 65536 (wrapped 65536 32771 tallPeak) (1, 32769) = 255 := h0
    rw [this, UInt8.le_iff_toNat_le]
    have := (resp 65536 (wrapped 65536 32771 tallPeak) q).toNat_lt
    have e : (255 : UInt8).toNat = 255 := rfl
    omega

/-- C78 is false: on this image the call returns the point (1, 32769), whose response is zero. -/
theorem corner_peaks_any_size_false :
    ¬ ∀ (P : Plat) (w h : Nat) (d : List UInt8) (m : Nat) (acc rou : ℚ), Img P w h 2 d → IsU32 m →
      w * h * 16 ≤ P.szMax →
      PeaksReturn (fcv_corner_peaks P w h (some d) m (.fin acc) (.fin rou)) (AllQualified w h d acc rou) := by
  intro hall
  have im := tallPeak_img
  have h1 := hall Plat.lp64 65536 32771 tallPeak 0 0 0 im (by decide) (by decide) Heap.fresh
  have h2 := corner_peaks_view (P := Plat.lp64) (view_wrapped im.len (by decide)) im.w_pos im.h_pos
    im.w_u32 im.h_u32 (by decide) (by decide) (m := 0) (by decide) 0 0 Heap.fresh
  obtain ⟨r, h', e, q1⟩ := h1
  obtain ⟨r2, h2', e2, q2⟩ := h2
  rw [e] at e2
  cases e2
  cases r with
  | none =>
    obtain ⟨_, _, _, i, _, _, hi⟩ := q1
    cases hi
  | some r =>
    obtain ⟨_, _, ps, hq, _, hps⟩ := q1
    obtain ⟨_, _, ps', ⟨_, _, hfair⟩, _, hps'⟩ := q2
    have hin : (1, 32769) ∈ ps' := by
      by_contra hc
      obtain ⟨q, _, _, hlt, _⟩ := hfair.1 _ tallPeak_qualified hc
      omega
    have heq : ps = ps' := by
      cases hr : r.points with
      | none =>
        rw [hr] at hps hps'
        rw [hps.1, hps'.1]
      | some b =>
        rw [hr] at hps hps'
        have := hps.2.1.symm.trans hps'.2.1
        refine List.map_injective_iff.2 ?_ this
        intro p q h
        simp only [Option.some.injEq, Prod.mk.injEq, Nat.cast_inj] at h
        exact Prod.ext h.1 h.2
    have := (hq.1 (1, 32769) (by rw [heq]; exact hin)).positive
    exact this (tallPeak_low (by omega) (by omega) (by omega))

/-! ### A concrete case -/

/-- A 5 × 4 response image with two maxima, (1, 1) and (3, 1), of which the second is stronger. -/
def twoPeaks : List UInt8 :=
  (List.range 20).flatMap fun i => if i = 6 then [200, 255] else if i = 8 then [220, 255] else [10, 9]

theorem twoPeaks_img : Img Plat.lp64 5 4 2 twoPeaks :=
  ⟨by decide, by decide, by decide, by decide, by decide, by decide⟩

/-- What a run returns: the number of points and their coordinates. -/
def peaksRun (m : Nat) (acc rou : ℚ) : Option (Nat × List (ℚ × ℚ)) :=
  match fcv_corner_peaks Plat.lp64 5 4 (some twoPeaks) m (.fin acc) (.fin rou) Heap.fresh with
  | .ok (some r, _) => some (r.count, match r.points with
    | none => []
    | some b => b.cells.filterMap id)
  | _ => none

example : peaksRun 2 (3 / 10) (1 / 2) = some (2, [(1, 1), (3, 1)]) := by decide +kernel

example : peaksRun 3 (3 / 10) (1 / 2) = some (1, [(3, 1)]) := by decide +kernel

example : peaksRun 3 (9 / 10) (1 / 2) = some (0, []) := by decide +kernel

end FlatCV.Props
