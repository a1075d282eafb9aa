/-
C43–C47, C75–C77: watershed segmentation.
-/
import Verif.Lemmas.WatershedCall
import Verif.Lemmas.Draw

namespace FlatCV.Props
open FlatCV Model Spec

variable {P : Plat} {w h : Nat} {d : List UInt8} {ms : List (Dbl × Dbl)}

/-! ### The picture -/

/-- The call on an image of at most `2^30` pixels, with or without boundaries: the result is the
picture of a labelling into regions grown from the markers; without boundaries every pixel is
flooded, in elevation order; with boundaries only pixels between two regions stay uncoloured. -/
theorem watershed_correct (bd : Bool) (im : Img P w h 1 d) (hms : MarkersInside w h ms)
    (hN0 : 0 < ms.length) (hN : ms.length < 2 ^ 32) (hn : w * h ≤ 2 ^ 30)
    (hsz : w * h * 12 ≤ P.szMax) :
    ∃ L, Yields (fcv_watershed_segmentation P w h (some d) (some ms) ms.length bd)
        (paintRegions w h L) ∧
      Regions w h ms L ∧ (bd = false → FloodsInOrder w h d ms L) ∧ BoundaryOnly w h L := by
  obtain ⟨lab, hI, hend, hr⟩ := watershed_core bd im hms hN0 hN (by omega) hsz
  have hpos : ∀ k, k < ms.length → Inside w h (mpos ms k) := fun k hk => (marker_at hms hk).2.1
  have hdec : ∀ {k p}, k < ms.length → lp w lab p = lbl k → decL w lab p = some k := by
    intro k p hk e
    unfold decL
    rw [e, dec_lbl (by omega)]
  have hback : ∀ {k p}, Inside w h p → decL w lab p = some k →
      lp w lab p ≠ -1 ∧ lp w lab p = lbl k ∧ k < ms.length := by
    intro k p hp e
    have hne : lp w lab p ≠ -1 := by
      intro hc
      unfold decL at e
      rw [hc] at e
      cases e
    obtain ⟨k', l, hk', _, e', _⟩ := hI.grown p hp hne
    have := hdec hk' e'
    rw [e] at this
    cases this
    exact ⟨hne, e', hk'⟩
  have hwalk : ∀ {k l a p}, k < ms.length →
      Walk (fun q => Inside w h q ∧ lp w lab q = lbl k ∧ elev w d q ≤ l) a p →
      Walk (fun q => Inside w h q ∧ decL w lab q = some k ∧ elev w d q ≤ l) a p :=
    fun hk hw => hw.mono fun q hq => ⟨hq.1, hdec hk hq.2.1, hq.2.2⟩
  refine ⟨decL w lab, ?_, ⟨?_, ?_⟩, ?_, ?_⟩
  · intro hp
    obtain ⟨r, h', e, hq⟩ := hr hp
    refine ⟨r, h', e, ?_⟩
    cases r with
    | none => exact hq
    | some b => exact ⟨hq.1, hq.2.1 (by omega)⟩
  · intro k p hk _
    obtain ⟨hk1, rfl⟩ := mpos_of hk
    obtain ⟨k', hk', e, e'⟩ := hI.mark k hk1
    refine ⟨k', hdec hk' e', ?_⟩
    rw [← e]
    exact (marker_at hms hk').1
  · intro p k hp e
    obtain ⟨hne, e1, hk⟩ := hback hp e
    obtain ⟨k', l, hk', _, e2, e3, hwk, _⟩ := hI.grown p hp hne
    have h1 := hdec hk' e2
    rw [e] at h1
    cases h1
    obtain ⟨h1, h2, _⟩ := marker_at hms hk
    exact ⟨mpos ms k, h1, h2, hdec hk e3, (hwalk hk hwk).mono fun q hq => ⟨hq.1, hq.2.1⟩⟩
  · rintro rfl p hp
    have hin := hpos 0 hN0
    have hne : lp w lab p ≠ -1 := by
      refine hI.done rfl 255 0 p (by omega) hN0 ((grid_walk hin hp).mono fun q hq => ⟨hq, ?_⟩)
      unfold elev
      have := (px w 1 d q.1 q.2 0).toNat_lt
      omega
    obtain ⟨k, l, hk, _, e2, e3, hwk, hmin⟩ := hI.grown p hp hne
    obtain ⟨h1, h2, _⟩ := marker_at hms hk
    refine ⟨k, mpos ms k, l, hdec hk e2, h1, h2, hdec hk e3, hwalk hk hwk, ?_⟩
    intro k' a' l' hk' _ hreach
    obtain ⟨hk1, rfl⟩ := mpos_of hk'
    exact hmin rfl k' l' hk1 hreach
  · intro p q k hp hq ha hnone hsome
    have hl := dec_none hnone
    obtain ⟨hne, e1, hk⟩ := hback hq hsome
    have hv : elev w d p ≤ 255 := by
      unfold elev
      have := (px w 1 d p.1 p.2 0).toNat_lt
      omega
    obtain ⟨q', hq', ha', hne', hdiff⟩ := wsExp_none_on hp (wsExps_nil hp hend) hl hv hq ha hne
    obtain ⟨k', l, hk', _, e2, _⟩ := hI.grown q' hq' hne'
    refine ⟨q', k', hq', ha', hdec hk' e2, ?_⟩
    rintro rfl
    exact hdiff (e2.trans e1.symm)

/-- C44: without boundaries every pixel of the picture has a region colour. -/
theorem watershed_total (im : Img P w h 1 d) (hms : MarkersInside w h ms)
    (hN0 : 0 < ms.length) (hN : ms.length < 2 ^ 32) (hn : w * h ≤ 2 ^ 30)
    (hsz : w * h * 12 ≤ P.szMax) :
    ∃ L, Yields (fcv_watershed_segmentation P w h (some d) (some ms) ms.length false)
        (paintRegions w h L) ∧ ∀ p, Inside w h p → ∃ k, k < ms.length ∧ L p = some k := by
  obtain ⟨L, hy, hr, hf, _⟩ := watershed_correct false im hms hN0 hN hn hsz
  refine ⟨L, hy, fun p hp => ?_⟩
  obtain ⟨k, a, l, e, hk, _⟩ := hf rfl p hp
  exact ⟨k, (mpos_of hk).1, e⟩

/-- No region colour is the background black: with `watershed_total`, no pixel of the picture
stays black. -/
theorem regionByte_not_black (k : Nat) :
    regionByte (some k) 0 ≠ 0 ∨ regionByte (some k) 1 ≠ 0 ∨ regionByte (some k) 2 ≠ 0 := by
  have : k = 0 ∨ k = 1 ∨ k = 2 ∨ k = 3 ∨ k = 4 ∨ k = 5 ∨ k = 6 ∨ k = 7 ∨ k = 8 ∨ ∃ j, k = j + 9 := by
    by_cases h : 9 ≤ k
    · have : ∃ j, k = j + 9 := ⟨k - 9, by omega⟩
      tauto
    · omega
  rcases this with rfl | rfl | rfl | rfl | rfl | rfl | rfl | rfl | rfl | ⟨j, rfl⟩ <;>
    simp [regionByte, regionColour]

/-- C45: in both modes every coloured pixel is joined to the marker of its region inside the
region, and a marker pixel belongs to a marker on it (its own if no other marker is there). -/
theorem watershed_connected (bd : Bool) (im : Img P w h 1 d) (hms : MarkersInside w h ms)
    (hN0 : 0 < ms.length) (hN : ms.length < 2 ^ 32) (hn : w * h ≤ 2 ^ 30)
    (hsz : w * h * 12 ≤ P.szMax) :
    ∃ L, Yields (fcv_watershed_segmentation P w h (some d) (some ms) ms.length bd)
        (paintRegions w h L) ∧ Regions w h ms L ∧
      ∀ k p, MarkerAt ms k p → (∀ k', MarkerAt ms k' p → k' = k) → L p = some k := by
  obtain ⟨L, hy, hr, _⟩ := watershed_correct bd im hms hN0 hN hn hsz
  refine ⟨L, hy, hr, fun k p hk hu => ?_⟩
  have hin : Inside w h p := by
    obtain ⟨hk1, rfl⟩ := mpos_of hk
    exact (marker_at hms hk1).2.1
  obtain ⟨k', e, hk'⟩ := hr.markers k p hk hin
  rw [e, hu k' hk']

/-- C46: without boundaries every pixel is flooded at the lowest level at which water from any
marker can reach it, along a path of its own region below that level. -/
theorem watershed_floods_in_order (im : Img P w h 1 d) (hms : MarkersInside w h ms)
    (hN0 : 0 < ms.length) (hN : ms.length < 2 ^ 32) (hn : w * h ≤ 2 ^ 30)
    (hsz : w * h * 12 ≤ P.szMax) :
    ∃ L, Yields (fcv_watershed_segmentation P w h (some d) (some ms) ms.length false)
        (paintRegions w h L) ∧ Regions w h ms L ∧ FloodsInOrder w h d ms L := by
  obtain ⟨L, hy, hr, hf, _⟩ := watershed_correct false im hms hN0 hN hn hsz
  exact ⟨L, hy, hr, hf rfl⟩

/-- C75: with boundaries, an uncoloured pixel next to a region touches a second one. -/
theorem watershed_boundary_only (im : Img P w h 1 d) (hms : MarkersInside w h ms)
    (hN0 : 0 < ms.length) (hN : ms.length < 2 ^ 32) (hn : w * h ≤ 2 ^ 30)
    (hsz : w * h * 12 ≤ P.szMax) :
    ∃ L, Yields (fcv_watershed_segmentation P w h (some d) (some ms) ms.length true)
        (paintRegions w h L) ∧ Regions w h ms L ∧ BoundaryOnly w h L := by
  obtain ⟨L, hy, hr, _, hb⟩ := watershed_correct true im hms hN0 hN hn hsz
  exact ⟨L, hy, hr, hb⟩

/-- The hypotheses can be met: a 3×1 ramp with markers at both ends. -/
example : Img Plat.lp64 3 1 1 [5, 9, 7] ∧
    MarkersInside 3 1 [(.fin 0, .fin 0), (.fin (5/2), .fin (-1/2))] ∧ 3 * 1 ≤ 2 ^ 30 ∧
    3 * 1 * 12 ≤ Plat.lp64.szMax := by
  refine ⟨⟨by omega, by omega, by decide, by decide, rfl, by decide⟩, ?_, by omega, by decide⟩
  intro m hm
  simp only [List.mem_cons, List.not_mem_nil, or_false] at hm
  rcases hm with rfl | rfl
  · exact ⟨(0, 0), ⟨0, 0, rfl, by unfold TruncatesTo; norm_num, by unfold TruncatesTo; norm_num⟩,
      by unfold Inside; omega⟩
  · exact ⟨(2, 0), ⟨5/2, -1/2, rfl, by unfold TruncatesTo; norm_num, by unfold TruncatesTo; norm_num⟩,
      by unfold Inside; omega⟩

/-! ### Separation -/

/-- C76 in full: with boundaries, regions of different markers never touch. -/
def WatershedSeparates : Prop :=
  ∀ (P : Plat) (w h : Nat) (d : List UInt8) (ms : List (Dbl × Dbl)), Img P w h 1 d →
    MarkersInside w h ms → 0 < ms.length → ms.length < 10 → w * h ≤ 2 ^ 30 →
    w * h * 12 ≤ P.szMax →
    ∃ L, Yields (fcv_watershed_segmentation P w h (some d) (some ms) ms.length true)
      (paintRegions w h L) ∧ Separated w h L

/-- The call on four flat pixels with markers at both ends. -/
def flatRun : Option (Cells UInt8) :=
  match fcv_watershed_segmentation Plat.lp64 4 1 (some [0, 0, 0, 0])
    (some [(.fin 0, .fin 0), (.fin 3, .fin 0)]) 2 true Heap.fresh with
  | .ok (some b, _) => some b.cells
  | _ => none

theorem flatRun_eq : flatRun = some ([255, 0, 0, 255, 255, 0, 0, 255, 0, 255, 0, 255,
    0, 255, 0, 255].map some) := by decide +kernel

/-- A byte of region colours equal to the red of region 0, and of region 1. -/
theorem region_of_colour {r : Option Nat} :
    (regionByte r 0 = 255 → regionByte r 1 = 0 → regionByte r 2 = 0 → r = some 0) ∧
    (regionByte r 0 = 0 → regionByte r 1 = 255 → regionByte r 2 = 0 → r = some 1) := by
  cases r with
  | none => simp [regionByte]
  | some k =>
    have : k = 0 ∨ k = 1 ∨ k = 2 ∨ k = 3 ∨ k = 4 ∨ k = 5 ∨ k = 6 ∨ k = 7 ∨ k = 8 ∨
        ∃ j, k = j + 9 := by
      by_cases h : 9 ≤ k
      · have : ∃ j, k = j + 9 := ⟨k - 9, by omega⟩
        tauto
      · omega
    rcases this with rfl | rfl | rfl | rfl | rfl | rfl | rfl | rfl | rfl | ⟨j, rfl⟩ <;>
      simp [regionByte, regionColour]

/-- Two fronts that meet between two pixels leave no boundary: C76 is false. -/
theorem not_watershedSeparates : ¬ WatershedSeparates := by
  intro hall
  obtain ⟨L, hy, hsep⟩ := hall Plat.lp64 4 1 [0, 0, 0, 0] [(.fin 0, .fin 0), (.fin 3, .fin 0)]
    ⟨by omega, by omega, by decide, by decide, rfl, by decide⟩ (by
      intro m hm
      simp only [List.mem_cons, List.not_mem_nil, or_false] at hm
      rcases hm with rfl | rfl
      · exact ⟨(0, 0), ⟨0, 0, rfl, by unfold TruncatesTo; norm_num,
          by unfold TruncatesTo; norm_num⟩, by unfold Inside; omega⟩
      · exact ⟨(3, 0), ⟨3, 0, rfl, by unfold TruncatesTo; norm_num,
          by unfold TruncatesTo; norm_num⟩, by unfold Inside; omega⟩)
    (by simp) (by simp) (by omega) (by decide)
  obtain ⟨b, hp', e, hc⟩ := hy.succeeds (hp := Heap.fresh) (fun _ => rfl)
  have hrun := flatRun_eq
  unfold flatRun at hrun
  have e' : fcv_watershed_segmentation Plat.lp64 4 1 (some [0, 0, 0, 0])
      (some [(.fin 0, .fin 0), (.fin 3, .fin 0)]) 2 true Heap.fresh = .ok (some b, hp') := e
  rw [e'] at hrun
  simp only [Option.some.injEq] at hrun
  rw [hc] at hrun
  have hout := map_some_inj hrun
  have byte : ∀ x c, x < 4 → c < 4 → regionByte (L (x, 0)) c
      = px 4 4 [255, 0, 0, 255, 255, 0, 0, 255, 0, 255, 0, 255, 0, 255, 0, 255] x 0 c := by
    intro x c hx hc
    rw [← hout, paintRegions, px_mkImg hx (by omega) hc]
  have h1 : L (1, 0) = some 0 := region_of_colour.1 (byte 1 0 (by omega) (by omega))
    (byte 1 1 (by omega) (by omega)) (byte 1 2 (by omega) (by omega))
  have h2 : L (2, 0) = some 1 := region_of_colour.2 (byte 2 0 (by omega) (by omega))
    (byte 2 1 (by omega) (by omega)) (byte 2 2 (by omega) (by omega))
  have := hsep (1, 0) (2, 0) 0 1 (by unfold Inside; omega) (by unfold Inside; omega)
    (by unfold Adj4; simp) h1 h2
  omega

/-! ### Termination and size -/

/-- C43 in full: the call returns on every image and every list of markers inside it. -/
def WatershedTerminates : Prop :=
  ∀ (P : Plat) (w h : Nat) (d : List UInt8) (ms : List (Dbl × Dbl)) (bd : Bool), Img P w h 1 d →
    MarkersInside w h ms → 0 < ms.length → ms.length < 2 ^ 32 →
    ∀ hp, fcv_watershed_segmentation P w h (some d) (some ms) ms.length bd hp ≠ .error (.comp .diverge)

/-- C43 for images of fewer than `2^31` pixels: the call returns, with any number of markers,
duplicates included. -/
theorem watershed_terminates_partial (bd : Bool) (im : Img P w h 1 d) (hms : MarkersInside w h ms)
    (hN0 : 0 < ms.length) (hN : ms.length < 2 ^ 32) (hn : w * h < 2 ^ 31)
    (hsz : w * h * 12 ≤ P.szMax) (hp : Heap) :
    ∃ r, fcv_watershed_segmentation P w h (some d) (some ms) ms.length bd hp = .ok r := by
  obtain ⟨lab, _, _, hr⟩ := watershed_core bd im hms hN0 hN (by omega) hsz
  obtain ⟨r, h', e, _⟩ := hr hp
  exact ⟨_, e⟩

/-- From `2^32` pixels on the call never returns unless an allocation fails: the 32-bit counter
of the loop that clears the labels wraps. -/
theorem watershed_diverges (bd : Bool) (im : Img P w h 1 d) (hms : MarkersInside w h ms)
    (hN0 : 0 < ms.length) (hw : w < 2 ^ 31) (hh : h < 2 ^ 31) (hn : 2 ^ 32 ≤ w * h)
    (hsz : w * h * 4 ≤ P.szMax) {hp : Heap} (hf : ∀ i, hp.fails i = false) :
    fcv_watershed_segmentation P w h (some d) (some ms) ms.length bd hp = .error (.comp .diverge) := by
  have h1 := im.w_pos
  have h2 := im.h_pos
  have hg1 : ¬ w > P.szMax / h := P.guard_of_mul_le h2 (by omega)
  have ez : P.sz (w * h) = w * h := P.sz_eq' (by omega)
  have hg2 : ¬ w * h > P.szMax / 4 := P.guard_of_mul_le (by omega) (by omega)
  have ez2 : P.sz (w * h * 4) = w * h * 4 := P.sz_eq' (by omega)
  have hN0' : ¬ ms.length = 0 := by omega
  have hwh : ¬ (w = 0 ∨ h = 0) := by omega
  have hbad : use [] (badMarkers w h ms.length ms) hp = .ok (false, hp) := by
    rw [badMarkers_ok hms (by omega) (by omega)]
    simp [use, Except.map]
  have ei : forU32 (w * h) (List.replicate (w * h) (none : Option Int)) (fun i l => wr l i (-1))
      = .error .diverge := by
    unfold forU32
    rw [if_neg (by omega)]
    obtain ⟨t, e, _⟩ := forN_ok (n := 2 ^ 32) (s := List.replicate (w * h) (none : Option Int))
      (body := fun i l => wr l i (-1)) (fun _ t => t.length = w * h) (by simp) (by
        intro i hi t ht
        rw [wr_ok (by omega)]
        exact Ok.pure (by simpa using ht))
    rw [e, ok_bind]
  generalize hn' : w * h = n at *
  unfold fcv_watershed_segmentation
  simp only [hN0', hwh, if_false]
  rw [hm_bind, hbad]
  simp only [Bool.false_eq_true, if_false, hg1, hn', ez, hg2, ez2]
  simp [hm_bind, malloc, use, hf, ei, Except.map]

/-- C43 is false as stated: a 65536×65536 image with one marker. -/
theorem not_watershedTerminates : ¬ WatershedTerminates := by
  intro hall
  have im : Img Plat.lp64 65536 65536 1 (List.replicate 4294967296 0) :=
    ⟨by omega, by omega, by decide, by decide, by rw [List.length_replicate],
      by rw [List.length_replicate]; decide⟩
  have hms : MarkersInside 65536 65536 [(.fin 0, .fin 0)] := by
    intro m hm
    simp only [List.mem_cons, List.not_mem_nil, or_false] at hm
    subst hm
    exact ⟨(0, 0), ⟨0, 0, rfl, by unfold TruncatesTo; norm_num, by unfold TruncatesTo; norm_num⟩,
      by unfold Inside; omega⟩
  exact hall _ _ _ _ _ false im hms (by simp) (by simp) Heap.fresh
    (watershed_diverges false im hms (by simp) (by omega) (by omega) (by omega) (by decide)
      (fun _ => rfl))

/-- C77 in full: for images of any size the picture is that of a labelling, or an allocation
failed. -/
def WatershedAnySize : Prop :=
  ∀ (P : Plat) (w h : Nat) (d : List UInt8) (ms : List (Dbl × Dbl)) (bd : Bool), Img P w h 1 d →
    MarkersInside w h ms → 0 < ms.length → ms.length < 2 ^ 32 → w * h * 12 ≤ P.szMax →
    ∃ L, Yields (fcv_watershed_segmentation P w h (some d) (some ms) ms.length bd)
      (paintRegions w h L)

/-- Between `2^30` and `2^31` pixels the result, if any, contains an uninitialised byte. -/
theorem watershed_large_uninit (bd : Bool) (im : Img P w h 1 d) (hms : MarkersInside w h ms)
    (hN0 : 0 < ms.length) (hN : ms.length < 2 ^ 32) (hn : 2 ^ 30 < w * h) (hn' : w * h < 2 ^ 31)
    (hsz : w * h * 12 ≤ P.szMax) (hp : Heap) :
    Returns (fcv_watershed_segmentation P w h (some d) (some ms) ms.length bd) hp
      (fun c => c[2 ^ 32]? = some none) := by
  obtain ⟨lab, _, _, hr⟩ := watershed_core bd im hms hN0 hN (by omega) hsz
  obtain ⟨r, h', e, hq⟩ := hr hp
  refine ⟨r, h', e, ?_⟩
  cases r with
  | none => exact hq
  | some b => exact ⟨hq.1, hq.2.2 (by omega)⟩

/-- C77 is false: a 32768×32769 image with one marker. -/
theorem not_watershedAnySize : ¬ WatershedAnySize := by
  intro hall
  have im : Img Plat.lp64 32768 32769 1 (List.replicate 1073774592 0) :=
    ⟨by omega, by omega, by decide, by decide, by rw [List.length_replicate],
      by rw [List.length_replicate]; decide⟩
  have hms : MarkersInside 32768 32769 [(.fin 0, .fin 0)] := by
    intro m hm
    simp only [List.mem_cons, List.not_mem_nil, or_false] at hm
    subst hm
    exact ⟨(0, 0), ⟨0, 0, rfl, by unfold TruncatesTo; norm_num, by unfold TruncatesTo; norm_num⟩,
      by unfold Inside; omega⟩
  obtain ⟨L, hy⟩ := hall _ _ _ _ _ false im hms (by simp) (by simp) (by decide)
  obtain ⟨b, hp', e, hc⟩ := hy.succeeds (hp := Heap.fresh) (fun _ => rfl)
  obtain ⟨r, h', e', hq⟩ := watershed_large_uninit false im hms (by simp) (by simp) (by omega)
    (by omega) (by decide) Heap.fresh
  rw [e] at e'
  cases e'
  have := hq.2
  rw [hc, List.getElem?_map] at this
  generalize (paintRegions 32768 32769 L)[2 ^ 32]? = v at this
  cases v <;> simp at this

/-! ### Rejection -/

/-- The conversion of the coordinate to `int32_t` is defined, or the coordinate is not finite. -/
def CoordOk : Dbl → Prop
  | .fin q => -2147483649 < q ∧ q < 2147483648
  | _ => True

/-- C47 in full. -/
def WatershedRejectsOutside : Prop :=
  ∀ (P : Plat) (w h : Nat) (d : List UInt8) (ms : List (Dbl × Dbl)) (bd : Bool),
    ¬ MarkersInside w h ms → 0 < ms.length → ms.length < 2 ^ 32 → IsU32 w → IsU32 h → ∀ hp,
      Rejects (fcv_watershed_segmentation P w h (some d) (some ms) ms.length bd) hp

theorem castI32_of_coordOk {q : ℚ} (h : CoordOk (.fin q)) : castI32 q = .ok (trunc q) := by
  obtain ⟨h1, h2⟩ := h
  refine castInt_ok ?_ ?_
  · unfold trunc
    split_ifs with h0
    · have := Int.floor_nonneg.2 h0
      omega
    · have : -2147483649 < ⌈q⌉ := by
        have h3 := Int.le_ceil q
        have h4 : ((-2147483649 : ℤ) : ℚ) < (⌈q⌉ : ℚ) := by push_cast; linarith
        exact_mod_cast h4
      omega
  · unfold trunc
    split_ifs with h0
    · have : ⌊q⌋ < 2147483648 := by rw [Int.floor_lt]; exact_mod_cast h2
      omega
    · have : ⌈q⌉ ≤ 0 := by rw [Int.ceil_le]; push_cast; linarith
      omega

theorem badMarkers_true (hbad : ¬ MarkersInside w h ms)
    (hc : ∀ m ∈ ms, CoordOk m.1 ∧ CoordOk m.2) (hw : IsU32 w) (hh : IsU32 h) :
    badMarkers w h ms.length ms = .ok true := by
  unfold badMarkers
  apply Ok.eq
  refine (forBreak_ok (fun i b => ∀ j, j < i → ∀ m, ms[j]? = some m →
    ∃ p, MarkerOn m p ∧ Inside w h p) (fun b => b = true) (by intro j hj; omega) ?_).mono ?_
  · intro k _ hk s hI
    have hk' : k < ms.length := by omega
    have e := List.getElem?_eq_getElem hk'
    have hcm := hc _ (List.getElem_mem hk')
    rw [rdIn_ok e, ok_bind]
    generalize ms[k] = m at e hcm
    obtain ⟨x, y⟩ := m
    cases x with
    | nan => exact Ok.pure' rfl
    | inf => exact Ok.pure' rfl
    | fin x =>
      cases y with
      | nan => exact Ok.pure' rfl
      | inf => exact Ok.pure' rfl
      | fin y =>
        dsimp only
        rw [castI32_of_coordOk hcm.1, ok_bind, castI32_of_coordOk hcm.2, ok_bind]
        split_ifs with hcond
        · exact Ok.pure' rfl
        · refine Ok.pure' ?_
          simp only [Bool.false_eq_true, if_false]
          intro j hj m hm
          by_cases hjk : j < k
          · exact hI j hjk m hm
          · have : j = k := by omega
            subst this
            rw [e] at hm
            cases hm
            have hle : ∀ n, IsU32 n → i32OfU32 n ≤ (n : Int) := by
              intro n hn
              unfold IsU32 at hn
              unfold i32OfU32
              split <;> omega
            have l1 := hle w hw
            have l2 := hle h hh
            refine ⟨((trunc x).toNat, (trunc y).toNat), ⟨x, y, rfl, truncatesTo_of (by omega),
              truncatesTo_of (by omega)⟩, ?_⟩
            constructor <;> simp only <;> omega
  · intro r hr
    rcases hr with hr | hr
    · exact hr
    · exfalso
      apply hbad
      intro m hm
      obtain ⟨j, hj, rfl⟩ := List.getElem_of_mem hm
      exact hr j (by omega) _ (List.getElem?_eq_getElem hj)

/-- C47 when every finite coordinate fits `int32_t` after truncation: a marker outside the image
or with a non-finite coordinate makes the call return NULL without touching the heap. -/
theorem watershed_rejects_outside_partial (bd : Bool) (hbad : ¬ MarkersInside w h ms)
    (hc : ∀ m ∈ ms, CoordOk m.1 ∧ CoordOk m.2) (hw : IsU32 w) (hh : IsU32 h) (hp : Heap) :
    Rejects (fcv_watershed_segmentation P w h (some d) (some ms) ms.length bd) hp := by
  unfold Rejects fcv_watershed_segmentation
  dsimp only
  by_cases h1 : ms.length = 0
  · rw [if_pos h1]; rfl
  by_cases h2 : w = 0 ∨ h = 0
  · rw [if_neg h1, if_pos h2]; rfl
  rw [if_neg h1, if_neg h2, hm_bind, badMarkers_true hbad hc hw hh]
  rfl

/-- Calls without an image, without markers, or with a zero dimension are rejected. -/
theorem watershed_rejects (bd : Bool) (gray : Option (List UInt8)) (mk : Option (List (Dbl × Dbl)))
    (n : Nat) (hbad : gray = none ∨ mk = none ∨ n = 0 ∨ w = 0 ∨ h = 0) (hp : Heap) :
    Rejects (fcv_watershed_segmentation P w h gray mk n bd) hp := by
  unfold Rejects fcv_watershed_segmentation
  cases gray with
  | none => rfl
  | some g =>
    cases mk with
    | none => rfl
    | some m =>
      dsimp only
      by_cases h1 : n = 0
      · rw [if_pos h1]; rfl
      have h2 : w = 0 ∨ h = 0 := by
        rcases hbad with h | h | h | h
        · cases h
        · cases h
        · exact absurd h h1
        · exact h
      rw [if_neg h1, if_pos h2]
      rfl

/-- The call with a marker at `(10^10, 0)` is undefined. -/
def hugeRun : Bool :=
  match fcv_watershed_segmentation Plat.lp64 4 4 (some []) (some [(.fin 10000000000, .fin 0)]) 1
    false Heap.fresh with
  | .error (.comp .castRange) => true
  | _ => false

theorem hugeRun_eq : hugeRun = true := by decide +kernel

/-- The coordinate `10^10` is converted to `int32_t` before it is checked: C47 is false. -/
theorem not_watershedRejectsOutside : ¬ WatershedRejectsOutside := by
  intro hall
  have : fcv_watershed_segmentation Plat.lp64 4 4 (some []) (some [(.fin 10000000000, .fin 0)]) 1
      false Heap.fresh = .ok (none, Heap.fresh) :=
    hall Plat.lp64 4 4 [] [(.fin 10000000000, .fin 0)] false (by
      intro hm
      obtain ⟨p, ⟨x, y, e, hx, _⟩, hin⟩ := hm (.fin 10000000000, .fin 0) (by simp)
      cases e
      have h1 := hin.1
      have h2 := hx.2.1
      have h3 : ((p.1 : Nat) : ℚ) < 4 := by exact_mod_cast h1
      linarith) (by simp) (by simp) (by decide) (by decide) Heap.fresh
  have hr := hugeRun_eq
  unfold hugeRun at hr
  rw [this] at hr
  cases hr

/-- The hypotheses of the partial theorem can be met: a marker right of the image after a good
one. -/
example : ¬ MarkersInside 2 2 [(.fin 1, .fin 1), (.fin 2, .fin 0)] ∧
    ∀ m ∈ [((Dbl.fin 1 : Dbl), (Dbl.fin 1 : Dbl)), (Dbl.fin 2, Dbl.fin 0)], CoordOk m.1 ∧ CoordOk m.2 := by
  constructor
  · intro hm
    obtain ⟨p, ⟨x, y, e, hx, _⟩, hin⟩ := hm (.fin 2, .fin 0) (by simp)
    cases e
    have h1 := hin.1
    have h2 := hx.2.1
    have h3 : ((p.1 : Nat) : ℚ) ≤ 1 := by exact_mod_cast Nat.le_of_lt_succ h1
    linarith
  · intro m hm
    simp only [List.mem_cons, List.not_mem_nil, or_false] at hm
    rcases hm with rfl | rfl <;> simp only [CoordOk] <;> norm_num

end FlatCV.Props
