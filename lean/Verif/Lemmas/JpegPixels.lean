import Verif.Lemmas.JpegFileRead
import Verif.Lemmas.JpegUp

/-! Helper lemmas: the decoder makes pixels of the three planes of a file. -/

namespace FlatCV
open Model Jpg

theorem rd_cell {α : Type} {v : Cells α} {i : ℕ} {a : α} (h : v[i]? = some (some a)) : rd v i = .ok a := by
  unfold rd
  rw [h]

/-- The resampler of the luminance before line `y`. -/
structure LumaAt (c : JComp) (r : Resample) (y : ℕ) : Prop where
  hs : r.hs = 1
  vs : r.vs = 1
  step : r.ystep = 0
  pos : r.ypos = y
  line1 : r.line1 = min y (c.y - 1) * c.w2

/-- The resampler of a difference before line `y`. -/
structure ChromaAt (w : ℕ) (c : JComp) (r : Resample) (y : ℕ) : Prop where
  hs : r.hs = 2
  vs : r.vs = 2
  wl : r.wLores = (w + 1) / 2
  step : r.ystep = (y + 1) % 2
  pos : r.ypos = (y + 1) / 2
  line1 : r.line1 = min ((y + 1) / 2) (c.y - 1) * c.w2
  line0 : r.line0 = min ((y + 1) / 2 - 1) (c.y - 1) * c.w2

theorem LumaAt.next {c : JComp} {r : Resample} {y : ℕ} (h : LumaAt c r y) : LumaAt c (resampleNext c r) (y + 1) := by
  unfold resampleNext
  rw [if_pos (by rw [h.vs, h.step])]
  refine ⟨h.hs, h.vs, rfl, by show r.ypos + 1 = _; rw [h.pos], ?_⟩
  show (if r.ypos + 1 < c.y then r.line1 + c.w2 else r.line1) = _
  rw [h.pos, h.line1]
  split
  · rw [show min (y + 1) (c.y - 1) = min y (c.y - 1) + 1 by omega]
    ring
  · rw [show min (y + 1) (c.y - 1) = min y (c.y - 1) by omega]

theorem ChromaAt.next {w : ℕ} {c : JComp} {r : Resample} {y : ℕ} (h : ChromaAt w c r y) : ChromaAt w c (resampleNext c r) (y + 1) := by
  unfold resampleNext
  by_cases hy : y % 2 = 0
  · rw [if_pos (by rw [h.vs, h.step]; omega)]
    refine ⟨h.hs, h.vs, h.wl, by show 0 = _; omega, by show r.ypos + 1 = _; rw [h.pos]; omega, ?_, ?_⟩
    · show (if r.ypos + 1 < c.y then r.line1 + c.w2 else r.line1) = _
      rw [h.pos, h.line1]
      split
      · rw [show min ((y + 1 + 1) / 2) (c.y - 1) = min ((y + 1) / 2) (c.y - 1) + 1 by omega]
        ring
      · rw [show min ((y + 1 + 1) / 2) (c.y - 1) = min ((y + 1) / 2) (c.y - 1) by omega]
    · show r.line1 = _
      rw [h.line1]
      rw [show (y + 1 + 1) / 2 - 1 = (y + 1) / 2 by omega]
  · rw [if_neg (by rw [h.vs, h.step]; omega)]
    refine ⟨h.hs, h.vs, h.wl, by show r.ystep + 1 = _; rw [h.step]; omega, by show r.ypos = _; rw [h.pos]; omega, ?_, ?_⟩
    · show r.line1 = _
      rw [h.line1, show (y + 1 + 1) / 2 = (y + 1) / 2 by omega]
    · show r.line0 = _
      rw [h.line0, show (y + 1 + 1) / 2 = (y + 1) / 2 by omega]

theorem luma_row {c : JComp} {r : Resample} {y w : ℕ} (h : LumaAt c r y) (hy : y < c.y) {P : ℕ → ℕ → UInt8}
    (hP : ∀ r < c.y, ∀ x < w, c.data[r * c.w2 + x]? = some (some (P r x))) (buf : Cells UInt8) :
    ∃ near, resampleRow c r buf = .ok (buf, near) ∧ ∀ x < w, near x = .ok (P y x) := by
  refine ⟨fun i => rd c.data (r.line1 + i), ?_, fun x hx => ?_⟩
  · unfold resampleRow
    dsimp only
    rw [if_pos ⟨h.hs, h.vs⟩, show decide (r.vs / 2 ≤ r.ystep) = true by rw [h.vs, h.step]; rfl]
    rfl
  · rw [h.line1, show min y (c.y - 1) = y by omega]
    exact rd_cell (hP y hy x hx)

theorem chroma_row {w : ℕ} {c : JComp} {r : Resample} {y : ℕ} (h : ChromaAt w c r y) (hw : 1 ≤ w) (hy : y / 2 < c.y) {P : ℕ → ℕ → UInt8}
    (hP : ∀ r < c.y, ∀ x < (w + 1) / 2, c.data[r * c.w2 + x]? = some (some (P r x))) {buf : Cells UInt8} (hb : buf.length = w + 3) :
    ∃ b, resampleRow c r buf = .ok (b, fun i => rd b i) ∧ b.length = w + 3 ∧
      ∀ x < w, rd b x = .ok (upByte (P (y / 2)) (P (beyond c.y y)) ((w + 1) / 2) x) := by
  have near : ∀ i < (w + 1) / 2, rd c.data ((if decide (r.vs / 2 ≤ r.ystep) = true then r.line1 else r.line0) + i) = .ok (P (y / 2) i) := by
    intro i hi
    rw [h.vs, h.step, h.line0, h.line1]
    by_cases hp : y % 2 = 0
    · rw [if_pos (by rw [decide_eq_true_eq]; omega), show min ((y + 1) / 2) (c.y - 1) = y / 2 by omega]
      exact rd_cell (hP _ hy i hi)
    · rw [if_neg (by rw [decide_eq_true_eq]; omega), show min ((y + 1) / 2 - 1) (c.y - 1) = y / 2 by omega]
      exact rd_cell (hP _ hy i hi)
  have far : ∀ i < (w + 1) / 2, rd c.data ((if decide (r.vs / 2 ≤ r.ystep) = true then r.line0 else r.line1) + i) = .ok (P (beyond c.y y) i) := by
    intro i hi
    rw [h.vs, h.step, h.line0, h.line1]
    unfold beyond
    by_cases hp : y % 2 = 0
    · rw [if_pos (by rw [decide_eq_true_eq]; omega), if_pos hp, show min ((y + 1) / 2 - 1) (c.y - 1) = y / 2 - 1 by omega]
      exact rd_cell (hP _ (by omega) i hi)
    · rw [if_neg (by rw [decide_eq_true_eq]; omega), if_neg hp, show min ((y + 1) / 2) (c.y - 1) = min (y / 2 + 1) (c.y - 1) by omega]
      exact rd_cell (hP _ (by omega) i hi)
  obtain ⟨b, e, l, k⟩ := hv_2_ok (w := (w + 1) / 2) (by omega) near far (out := buf) (by omega)
  refine ⟨b, ?_, l.trans hb, fun x hx => rd_cell (k x (by omega))⟩
  unfold resampleRow
  dsimp only
  rw [if_neg (by rw [h.hs]; omega), if_neg (by rw [h.hs]; omega), if_neg (by rw [h.vs]; omega), if_pos ⟨h.hs, h.vs⟩, h.wl, e]
  rfl

/-- The three bytes of pixel `x` of line `y`. -/
def redAt (P : ℕ → ℕ → ℕ → UInt8) (w h y x : ℕ) : UInt8 :=
  redB (P 0 y x) (upByte (P 2 (y / 2)) (P 2 (beyond ((h + 1) / 2) y)) ((w + 1) / 2) x)
def greenAt (P : ℕ → ℕ → ℕ → UInt8) (w h y x : ℕ) : UInt8 :=
  greenB (P 0 y x) (upByte (P 1 (y / 2)) (P 1 (beyond ((h + 1) / 2) y)) ((w + 1) / 2) x) (upByte (P 2 (y / 2)) (P 2 (beyond ((h + 1) / 2) y)) ((w + 1) / 2) x)
def blueAt (P : ℕ → ℕ → ℕ → UInt8) (w h y x : ℕ) : UInt8 :=
  blueB (P 0 y x) (upByte (P 1 (y / 2)) (P 1 (beyond ((h + 1) / 2) y)) ((w + 1) / 2) x)

/-- The lines before `y` are done. -/
def LinesDone (P : ℕ → ℕ → ℕ → UInt8) (w h : ℕ) (out : Cells UInt8) (y : ℕ) : Prop :=
  out.length = 4 * w * h + 1 ∧ ∀ y' < y, ∀ x < w, out[4 * w * y' + 4 * x]? = some (some (redAt P w h y' x)) ∧
    out[4 * w * y' + 4 * x + 1]? = some (some (greenAt P w h y' x)) ∧ out[4 * w * y' + 4 * x + 2]? = some (some (blueAt P w h y' x)) ∧
    out[4 * w * y' + 4 * x + 3]? = some (some 255)

theorem lines_ok {j : Jst} {w h : ℕ} {c0 c1 c2 : JComp} (hw : 1 ≤ w) (hN : j.imgN = 3) (hX : j.imgX = w) (hrgb : j.rgb = 0) (h14 : j.app14 = -1)
    (hM : j.hMax = 2 ∧ j.vMax = 2) (y0 : c0.y = h) (y1 : c1.y = (h + 1) / 2) (y2 : c2.y = (h + 1) / 2) (s0 : c0.h = 2 ∧ c0.v = 2) (s1 : c1.h = 1 ∧ c1.v = 1)
    (s2 : c2.h = 1 ∧ c2.v = 1) {P : ℕ → ℕ → ℕ → UInt8} (p0 : ∀ r < h, ∀ x < w, c0.data[r * c0.w2 + x]? = some (some (P 0 r x)))
    (p1 : ∀ r < (h + 1) / 2, ∀ x < (w + 1) / 2, c1.data[r * c1.w2 + x]? = some (some (P 1 r x)))
    (p2 : ∀ r < (h + 1) / 2, ∀ x < (w + 1) / 2, c2.data[r * c2.w2 + x]? = some (some (P 2 r x))) :
    Ok (forN h (⟨[c0, c1, c2].map fun c => (resampleStart j c, List.replicate (w + 3) none), List.replicate (4 * w * h + 1) none⟩ : LineSt)
      fun y st => do
        let (res, ls) ← allRows [c0, c1, c2] st.res
        let out ← colourRow j st.out (4 * w * y) ls
        pure ⟨res, out⟩) fun st => LinesDone P w h st.out h := by
  refine (forN_ok (fun y (st : LineSt) => (∃ r0 b0 r1 b1 r2 b2, st.res = [(r0, b0), (r1, b1), (r2, b2)] ∧ LumaAt c0 r0 y ∧ ChromaAt w c1 r1 y ∧ ChromaAt w c2 r2 y ∧
      b1.length = w + 3 ∧ b2.length = w + 3) ∧ LinesDone P w h st.out y) ?_ ?_).mono fun _ h => h.2
  · refine ⟨⟨_, _, _, _, _, _, rfl, ?_, ?_, ?_, List.length_replicate, List.length_replicate⟩, List.length_replicate, fun y' hy' => absurd hy' (by omega)⟩
    · unfold resampleStart
      rw [hM.1, hM.2, s0.1, s0.2]
      exact ⟨rfl, rfl, rfl, rfl, by simp⟩
    · unfold resampleStart
      rw [hM.1, hM.2, s1.1, s1.2, hX]
      exact ⟨rfl, rfl, rfl, rfl, rfl, by simp, by simp⟩
    · unfold resampleStart
      rw [hM.1, hM.2, s2.1, s2.2, hX]
      exact ⟨rfl, rfl, rfl, rfl, rfl, by simp, by simp⟩
  · rintro y hy st ⟨⟨r0, b0, r1, b1, r2, b2, hres, L0, C1, C2, l1, l2⟩, hlen, hdone⟩
    obtain ⟨near, e0, n0⟩ := luma_row L0 (by omega) (w := w) (P := P 0) (by rw [y0]; exact p0) b0
    obtain ⟨d1, e1, m1, k1⟩ := chroma_row C1 hw (by omega) (P := P 1) (by rw [y1]; exact p1) l1
    obtain ⟨d2, e2, m2, k2⟩ := chroma_row C2 hw (by omega) (P := P 2) (by rw [y2]; exact p2) l2
    have hall : allRows [c0, c1, c2] [(r0, b0), (r1, b1), (r2, b2)] =
        .ok ([(resampleNext c0 r0, b0), (resampleNext c1 r1, d1), (resampleNext c2 r2, d2)], [near, fun i => rd d1 i, fun i => rd d2 i]) := by
      simp only [allRows, e0, e1, e2, ok_bind]
      rfl
    rw [y1] at k1
    rw [y2] at k2
    have hoff : 4 * w * y + 4 * w ≤ 4 * w * h := by
      calc 4 * w * y + 4 * w = 4 * w * (y + 1) := by ring
        _ ≤ 4 * w * h := Nat.mul_le_mul_left _ (by omega)
    obtain ⟨o, eo, lo, oth, px⟩ := ycc_row_ok (count := w) n0 k1 k2 (out := st.out) (off := 4 * w * y) (by rw [hlen]; omega)
    rw [hres]
    refine Ok.of_eq (a := ⟨[(resampleNext c0 r0, b0), (resampleNext c1 r1, d1), (resampleNext c2 r2, d2)], o⟩) ?_ ⟨⟨_, _, _, _, _, _, rfl, L0.next, C1.next, C2.next, m1, m2⟩, lo.trans hlen, ?_⟩
    · refine (bind_of_eq hall _).trans ?_
      dsimp only
      refine (bind_of_eq (a := o) ?_ _).trans rfl
      unfold colourRow
      dsimp only
      rw [if_pos hN, if_neg (by rw [hrgb, h14]; simp), hX]
      exact eo
    · intro y' hy' x hx
      rcases Nat.lt_or_ge y' y with hlt | hge
      · have hle : 4 * w * y' + 4 * w ≤ 4 * w * y := by
          calc 4 * w * y' + 4 * w = 4 * w * (y' + 1) := by ring
            _ ≤ 4 * w * y := Nat.mul_le_mul_left _ (by omega)
        rw [oth _ (Or.inl (by omega)), oth _ (Or.inl (by omega)), oth _ (Or.inl (by omega)), oth _ (Or.inl (by omega))]
        exact hdone y' hlt x hx
      · obtain rfl : y' = y := by omega
        exact px x hx

end FlatCV
