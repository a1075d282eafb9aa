/-
The JPEG decoder on arbitrary files: enlargement, colours, and the decoder as a whole.
-/
import Verif.Lemmas.JpegSafeScan
import Verif.Lemmas.JpegUp

namespace FlatCV
open Model

/-! ### Lines -/

/-- Reading below `n` stays in bounds. -/
def LineOk (B : Prop) (n : Nat) (f : Nat → CM UInt8) : Prop := ∀ i < n, Outc (JE B) (f i) fun _ => True

theorem row_v_2_out {B : Prop} {out : Cells UInt8} {near far : Nat → CM UInt8} {w n m : Nat} (hl : out.length = n) (h1 : LineOk B m near) (h2 : LineOk B m far) (hw : w ≤ m) (hn : w ≤ n) :
    Outc (JE B) (resample_row_v_2 out near far w) fun r => r.length = n := by
  unfold resample_row_v_2
  refine (Outc.forN (fun _ (r : Cells UInt8) => r.length = n) hl fun i hi r hr => ?_).mono fun r hr => hr
  refine Outc.bind (h1 i (by omega)) fun a _ => Outc.bind (h2 i (by omega)) fun b _ => ?_
  exact js_wrL hr (by omega)

theorem row_h_2_out {B : Prop} {out : Cells UInt8} {input : Nat → CM UInt8} {w n m : Nat} (hl : out.length = n) (h1 : LineOk B m input) (hw1 : 1 ≤ w) (hw : w ≤ m) (hn : w * 2 ≤ n) :
    Outc (JE B) (resample_row_h_2 out input w) fun r => r.length = n := by
  unfold resample_row_h_2
  split
  · refine Outc.bind (h1 0 (by omega)) fun a _ => ?_
    refine Outc.bind (js_wrL hl (by omega)) fun out hl => ?_
    exact js_wrL hl (by omega)
  · refine Outc.bind (h1 0 (by omega)) fun a _ => Outc.bind (h1 1 (by omega)) fun b _ => ?_
    refine Outc.bind (js_wrL hl (by omega)) fun out hl => ?_
    refine Outc.bind (js_wrL hl (by omega)) fun out hl => ?_
    refine Outc.bind (P := fun r : Cells UInt8 => r.length = n) ((Outc.forN (fun _ (r : Cells UInt8) => r.length = n) hl fun i hi r hr => ?_).mono fun r hr => hr) fun out hl => ?_
    · refine Outc.bind (h1 _ (by omega)) fun a _ => Outc.bind (h1 _ (by omega)) fun b _ => Outc.bind (h1 _ (by omega)) fun c _ => ?_
      refine Outc.bind (js_wrL hr (by omega)) fun out hl => ?_
      exact js_wrL hl (by omega)
    · refine Outc.bind (h1 _ (by omega)) fun a _ => Outc.bind (h1 _ (by omega)) fun b _ => ?_
      refine Outc.bind (js_wrL hl (by omega)) fun out hl => ?_
      exact js_wrL hl (by omega)

theorem row_hv_2_out {B : Prop} {out : Cells UInt8} {near far : Nat → CM UInt8} {w n m : Nat} (hl : out.length = n) (h1 : LineOk B m near) (h2 : LineOk B m far) (hw1 : 1 ≤ w) (hw : w ≤ m)
    (hn : w * 2 ≤ n) : Outc (JE B) (resample_row_hv_2 out near far w) fun r => r.length = n := by
  unfold resample_row_hv_2
  refine Outc.bind (h1 0 (by omega)) fun a _ => Outc.bind (h2 0 (by omega)) fun b _ => ?_
  split
  · refine Outc.bind (js_wrL hl (by omega)) fun out hl => ?_
    exact js_wrL hl (by omega)
  · dsimp only
    refine Outc.bind (js_wrL hl (by omega)) fun out hl => ?_
    refine Outc.bind (P := fun r : Cells UInt8 × Nat => r.1.length = n) ((Outc.forN (fun _ (r : Cells UInt8 × Nat) => r.1.length = n) hl fun i hi r hr => ?_).mono fun r hr => hr) fun out hl => ?_
    · obtain ⟨out, t⟩ := r
      dsimp only at hr ⊢
      refine Outc.bind (h1 _ (by omega)) fun a _ => Outc.bind (h2 _ (by omega)) fun b _ => ?_
      refine Outc.bind (js_wrL hr (by omega)) fun out hl => ?_
      refine Outc.bind (js_wrL hl (by omega)) fun out hl => ?_
      exact hl
    · obtain ⟨out, t⟩ := out
      exact js_wrL hl (by omega)

theorem row_generic_out {B : Prop} {out : Cells UInt8} {near : Nat → CM UInt8} {w hs n m : Nat} (hl : out.length = n) (h1 : LineOk B m near) (hw : w ≤ m) (hn : w * hs ≤ n) :
    Outc (JE B) (resample_row_generic out near w hs) fun r => r.length = n := by
  unfold resample_row_generic
  refine (Outc.forN (fun _ (r : Cells UInt8) => r.length = n) hl fun i hi r hr => ?_).mono fun r hr => hr
  refine (Outc.forN (fun _ (r : Cells UInt8) => r.length = n) hr fun k hk r hr => ?_).mono fun r hr => hr
  refine Outc.bind (h1 i (by omega)) fun a _ => js_wrL hr ?_
  have h2 : (i + 1) * hs ≤ w * hs := Nat.mul_le_mul_right hs hi
  have h3 : (i + 1) * hs = i * hs + hs := by ring
  omega

/-- A resampler stays in its plane. -/
structure ResS (X : Nat) (c : JComp) (p : Resample × Cells UInt8) : Prop where
  buf : p.2.length = X + 3
  w1 : 1 ≤ p.1.wLores
  w2 : p.1.wLores ≤ c.w2
  wide : p.1.wLores * p.1.hs ≤ X + 3
  one : p.1.hs = 1 → X ≤ c.w2
  data : c.data.length = c.w2 * c.h2
  y : c.y ≤ c.h2
  l0 : ∃ a < c.h2, p.1.line0 = c.w2 * a
  l1 : ∃ a < c.h2, p.1.line1 = c.w2 * a ∧ a ≤ p.1.ypos

theorem line_ok {B : Prop} {c : JComp} {l a : Nat} (hd : c.data.length = c.w2 * c.h2) (ha : a < c.h2) (hl : l = c.w2 * a) : LineOk B c.w2 fun i => rd c.data (l + i) := by
  intro i hi
  apply js_rd
  rw [hd, hl]
  have h2 : c.w2 * (a + 1) ≤ c.w2 * c.h2 := Nat.mul_le_mul_left _ ha
  have h3 : c.w2 * (a + 1) = c.w2 * a + c.w2 := by ring
  omega

theorem resampleRow_out {B : Prop} {X : Nat} {c : JComp} {r : Resample} {b : Cells UInt8} (h : ResS X c (r, b)) :
    Outc (JE B) (resampleRow c r b) fun p => p.1.length = X + 3 ∧ LineOk B X p.2 := by
  obtain ⟨hb, w1, w2, wide, one, data, hy, ⟨a0, h0, e0⟩, ⟨a1, h1, e1, _⟩⟩ := h
  dsimp only at hb w1 w2 wide one e0 e1
  unfold resampleRow
  dsimp only
  have hnear : LineOk B c.w2 fun i => rd c.data ((if decide (r.vs / 2 ≤ r.ystep) = true then r.line1 else r.line0) + i) := by
    split
    · exact line_ok data h1 e1
    · exact line_ok data h0 e0
  have hfar : LineOk B c.w2 fun i => rd c.data ((if decide (r.vs / 2 ≤ r.ystep) = true then r.line0 else r.line1) + i) := by
    split
    · exact line_ok data h0 e0
    · exact line_ok data h1 e1
  generalize (fun i => rd c.data ((if decide (r.vs / 2 ≤ r.ystep) = true then r.line1 else r.line0) + i)) = near at hnear ⊢
  generalize (fun i => rd c.data ((if decide (r.vs / 2 ≤ r.ystep) = true then r.line0 else r.line1) + i)) = far at hfar ⊢
  split
  · rename_i h11
    exact ⟨hb, fun i hi => hnear i (by have := one h11.1; omega)⟩
  · have fin : ∀ (M : CM (Cells UInt8)), Outc (JE B) M (fun r => r.length = X + 3) →
        Outc (JE B) (do let b ← M; pure (b, fun i => rd b i)) fun p : Cells UInt8 × (Nat → CM UInt8) => p.1.length = X + 3 ∧ LineOk B X p.2 :=
      fun M hM => Outc.bind hM fun b hb => ⟨hb, fun i hi => js_rd (by omega)⟩
    split
    · rename_i hc
      rw [hc.1] at wide
      exact fin _ (row_v_2_out hb hnear hfar w2 (by omega))
    · split
      · rename_i hc
        rw [hc.1] at wide
        exact fin _ (row_h_2_out hb hnear w1 w2 wide)
      · split
        · rename_i hc
          rw [hc.1] at wide
          exact fin _ (row_hv_2_out hb hnear hfar w1 w2 wide)
        · exact fin _ (row_generic_out hb hnear w2 wide)

theorem resampleNext_out {X : Nat} {c : JComp} {r : Resample} {b b' : Cells UInt8} (h : ResS X c (r, b)) (hb : b'.length = X + 3) : ResS X c (resampleNext c r, b') := by
  obtain ⟨_, w1, w2, wide, one, data, hy, ⟨a0, h0, e0⟩, ⟨a1, h1, e1, e2⟩⟩ := h
  dsimp only at w1 w2 wide one e0 e1 e2
  unfold resampleNext
  split
  · refine ⟨hb, w1, w2, wide, one, data, hy, ⟨a1, h1, e1⟩, ?_⟩
    dsimp only
    split
    · refine ⟨a1 + 1, by omega, ?_, by omega⟩
      rw [e1]
      ring
    · exact ⟨a1, h1, e1, by omega⟩
  · exact ⟨hb, w1, w2, wide, one, data, hy, ⟨a0, h0, e0⟩, ⟨a1, h1, e1, e2⟩⟩

theorem allRows_out {B : Prop} {X : Nat} : ∀ (cs : List JComp) (rs : List (Resample × Cells UInt8)), List.Forall₂ (ResS X) cs rs →
    Outc (JE B) (allRows cs rs) fun p => List.Forall₂ (ResS X) cs p.1 ∧ p.2.length = cs.length ∧ ∀ l ∈ p.2, LineOk B X l := by
  intro cs rs h
  induction h with
  | nil => exact ⟨List.Forall₂.nil, rfl, fun l hl => by cases hl⟩
  | @cons c r cs rs h _ ih =>
    obtain ⟨r, b⟩ := r
    unfold allRows
    refine Outc.bind (resampleRow_out h) fun p hp => ?_
    obtain ⟨b', l⟩ := p
    refine Outc.bind ih fun q hq => ?_
    obtain ⟨rs', ls⟩ := q
    refine ⟨List.Forall₂.cons (resampleNext_out h hp.1) hq.1, by show ls.length + 1 = _; rw [hq.2.1, List.length_cons], fun l' hl' => ?_⟩
    rcases List.mem_cons.mp hl' with rfl | hl'
    · exact hp.2
    · exact hq.2.2 l' hl'

/-! ### Colours -/

/-- `n` bytes, of which the first `k` have been written. -/
structure PixFill (n k : Nat) (out : Cells UInt8) : Prop where
  len : out.length = n
  val : ∀ i < k, ∃ v, out[i]? = some (some v)

theorem PixFill.wr_next {E : Fault → Prop} {n k : Nat} {out : Cells UInt8} (h : PixFill n k out) (hk : k < n) (v : UInt8) : Outc E (wr out k v) (PixFill n (k + 1)) := by
  have hl := h.len
  refine (js_wr (by omega)).mono fun r hr => ?_
  subst hr
  refine ⟨by rw [List.length_set, hl], fun i hi => ?_⟩
  by_cases hik : k = i
  · subst hik
    exact ⟨v, List.getElem?_set_self (by omega)⟩
  · rw [List.getElem?_set_ne hik]
    exact h.val i (by omega)

theorem PixFill.wr_old {E : Fault → Prop} {n k p : Nat} {out : Cells UInt8} (h : PixFill n k out) (hk : p < n) (v : UInt8) : Outc E (wr out p v) (PixFill n k) := by
  have hl := h.len
  refine (js_wr (by omega)).mono fun r hr => ?_
  subst hr
  refine ⟨by rw [List.length_set, hl], fun i hi => ?_⟩
  by_cases hik : p = i
  · subst hik
    exact ⟨v, List.getElem?_set_self (by omega)⟩
  · rw [List.getElem?_set_ne hik]
    exact h.val i hi

theorem putPixel_out {E : Fault → Prop} {n p : Nat} {out : Cells UInt8} (h : PixFill n p out) (hp : p + 3 < n) (r g b : UInt8) : Outc E (putPixel out p r g b) (PixFill n (p + 4)) := by
  unfold putPixel
  refine Outc.bind (h.wr_next (by omega) _) fun o h => ?_
  refine Outc.bind (h.wr_next (by omega) _) fun o h => ?_
  refine Outc.bind (h.wr_next (by omega) _) fun o h => ?_
  exact h.wr_next (by omega) _

theorem ycc_row_out {B : Prop} {n off X : Nat} {out : Cells UInt8} {y cb cr : Nat → CM UInt8} (h : PixFill n off out) (hn : off + X * 4 ≤ n) (h1 : LineOk B X y) (h2 : LineOk B X cb) (h3 : LineOk B X cr) :
    Outc (JE B) (ycc_row out off y cb cr X) (PixFill n (off + X * 4)) := by
  unfold ycc_row
  refine (Outc.forN (fun i (r : Cells UInt8) => PixFill n (off + i * 4) r) (by rw [Nat.zero_mul]; exact h) fun i hi r hr => ?_).mono fun r hr => hr
  refine Outc.bind (h1 i hi) fun a _ => Outc.bind (h3 i hi) fun b _ => Outc.bind (h2 i hi) fun c _ => ?_
  rw [ycc_pixel_ok]
  have e : off + (i + 1) * 4 = off + i * 4 + 3 + 1 := by ring
  rw [e]
  show Outc (JE B) (wr r (off + i * 4) _ >>= _) _
  refine Outc.bind (hr.wr_next (by omega) _) fun o h => ?_
  refine Outc.bind (h.wr_next (by omega) _) fun o h => ?_
  refine Outc.bind (h.wr_next (by omega) _) fun o h => ?_
  exact h.wr_next (by omega) _

theorem colourRow_out {B : Prop} {n off X N : Nat} {j : Jst} {out : Cells UInt8} {l : List (Nat → CM UInt8)} (hX : j.imgX = X) (hN : j.imgN = N) (hl : l.length = N) (h1 : 1 ≤ N) (hL : ∀ f ∈ l, LineOk B X f)
    (h : PixFill n off out) (hn : off + X * 4 ≤ n) : Outc (JE B) (colourRow j out off l) (PixFill n (off + X * 4)) := by
  have hg : ∀ k < N, LineOk B X (l.getD k fun _ => .error .nullDeref) := by
    intro k hk
    rw [List.getD_eq_getElem _ _ (by omega)]
    exact hL _ (List.getElem_mem _)
  unfold colourRow
  dsimp only
  rw [hX, hN]
  split
  · rename_i hn3
    have c0 := hg 0 (by omega)
    have c1 := hg 1 (by omega)
    have c2 := hg 2 (by omega)
    split
    · refine (Outc.forN (fun i (r : Cells UInt8) => PixFill n (off + i * 4) r) (by rw [Nat.zero_mul]; exact h) fun i hi r hr => ?_).mono fun r hr => hr
      refine Outc.bind (c0 i hi) fun a _ => Outc.bind (c1 i hi) fun b _ => Outc.bind (c2 i hi) fun c _ => ?_
      have e : off + (i + 1) * 4 = off + i * 4 + 4 := by ring
      rw [e]
      exact putPixel_out hr (by omega) _ _ _
    · exact ycc_row_out h hn c0 c1 c2
  · split
    · have c0 := hg 0 (by omega)
      have c1 := hg 1 (by omega)
      have c2 := hg 2 (by omega)
      have c3 := hg 3 (by omega)
      split
      · refine (Outc.forN (fun i (r : Cells UInt8) => PixFill n (off + i * 4) r) (by rw [Nat.zero_mul]; exact h) fun i hi r hr => ?_).mono fun r hr => hr
        refine Outc.bind (c3 i hi) fun m _ => Outc.bind (c0 i hi) fun a _ => Outc.bind (c1 i hi) fun b _ => Outc.bind (c2 i hi) fun c _ => ?_
        have e : off + (i + 1) * 4 = off + i * 4 + 4 := by ring
        rw [e]
        exact putPixel_out hr (by omega) _ _ _
      · refine Outc.bind (ycc_row_out h hn c0 c1 c2) fun out h => ?_
        split
        · refine (Outc.forN (fun i (r : Cells UInt8) => PixFill n (off + X * 4) r) h fun i hi r hr => ?_).mono fun r hr => hr
          have hlen := hr.len
          refine Outc.bind (c3 i hi) fun m _ => ?_
          refine Outc.bind (js_rd (by omega)) fun a _ => Outc.bind (js_rd (by omega)) fun b _ => Outc.bind (js_rd (by omega)) fun c _ => ?_
          refine Outc.bind (hr.wr_old (by omega) _) fun o h => ?_
          refine Outc.bind (h.wr_old (by omega) _) fun o h => ?_
          exact h.wr_old (by omega) _
        · exact h
    · have c0 := hg 0 (by omega)
      refine (Outc.forN (fun i (r : Cells UInt8) => PixFill n (off + i * 4) r) (by rw [Nat.zero_mul]; exact h) fun i hi r hr => ?_).mono fun r hr => hr
      refine Outc.bind (c0 i hi) fun a _ => ?_
      have e : off + (i + 1) * 4 = off + i * 4 + 4 := by ring
      rw [e]
      exact putPixel_out hr (by omega) _ _ _

/-! ### The decoder -/

theorem resS_start {B : Prop} {D : Dims} (hD : DimsOk D) {j : Jst} (J : JstS B j) (F : FrameS D j) {i : Nat} (hi : i < D.N) {c : JComp} (hc : j.comps[i]? = some c) :
    ResS D.X c (resampleStart j c, List.replicate (D.X + 3) none) := by
  have hP : PlaneS D i c := by
    obtain ⟨c', e1, e2⟩ := F.comp i hi
    rw [hc] at e1
    injection e1 with e1
    subst e1
    exact e2
  obtain ⟨a1, a2, a3⟩ := hD.h i hi
  obtain ⟨b1, b2, b3⟩ := hD.v i hi
  have hhs : D.h i * (D.hM / D.h i) = D.hM := by
    have := Nat.div_add_mod D.hM (D.h i)
    omega
  have hx1 := hD.x1
  have hM1 := hD.hM1
  have hM4 := hD.hM4
  have hlemX := le_mX hD
  have hlemY := le_mY hD
  have hy1 := hD.y1
  have hs1 : 1 ≤ D.hM / D.h i := by
    rcases Nat.eq_zero_or_pos (D.hM / D.h i) with h | h
    · rw [h] at hhs
      omega
    · exact h
  have hs4 : D.hM / D.h i ≤ 4 := (Nat.div_le_self _ _).trans hM4
  have hmY : 1 ≤ D.mY := by
    rcases Nat.eq_zero_or_pos D.mY with h | h
    · rw [h] at hlemY
      omega
    · exact h
  have hh2 : 0 < c.h2 := by
    rw [hP.h2]
    positivity
  have hw2 : c.w2 = D.mX * 8 * D.h i := by rw [hP.w2]; ring
  unfold resampleStart
  rw [hP.h, F.hMax, F.imgX, hP.v, F.vMax]
  dsimp only
  generalize hsd : D.hM / D.h i = hs at hhs hs1 hs4 ⊢
  have hX : D.X ≤ (D.mX * 8 * D.h i) * hs := by
    calc D.X ≤ D.mX * 8 * D.hM := hlemX
      _ = _ := by rw [← hhs]; ring
  refine ⟨List.length_replicate, ?_, ?_, ?_, ?_, (J.c c (js_mem hc)).data, plane_y hD hP, ⟨0, hh2, by rw [Nat.mul_zero]⟩, ⟨0, hh2, by rw [Nat.mul_zero], le_rfl⟩⟩
  · show 1 ≤ (D.X + hs - 1) / hs
    rw [Nat.le_div_iff_mul_le (by omega)]
    omega
  · show (D.X + hs - 1) / hs ≤ c.w2
    rw [hw2]
    have := ceil_mul_le (a := 1) (b := 0) hs1 hX
    rwa [Nat.mul_one, Nat.mul_one] at this
  · show (D.X + hs - 1) / hs * hs ≤ D.X + 3
    have := Nat.div_mul_le_self (D.X + hs - 1) hs
    omega
  · intro h1
    have h1' : hs = 1 := h1
    rw [hw2]
    rw [h1', Nat.mul_one] at hX
    exact hX

theorem forall2_map {α β : Type} {R : α → β → Prop} {f : α → β} : ∀ {l : List α}, (∀ x ∈ l, R x (f x)) → List.Forall₂ R l (l.map f)
  | [], _ => List.Forall₂.nil
  | _ :: _, h => List.Forall₂.cons (h _ (by simp)) (forall2_map fun x hx => h x (by simp [hx]))

/-- What the loader may return for a sequential file. -/
structure GoodImage (L : Model.Loaded) : Prop where
  x : 1 ≤ L.x ∧ L.x ≤ 65535
  y : 1 ≤ L.y ∧ L.y ≤ 65535
  n : L.n = 1 ∨ L.n = 3
  len : L.data.length = 4 * L.x * L.y + 1
  data : ∀ i < 4 * L.x * L.y, ∃ v, L.data[i]? = some (some v)

theorem jpeg_pixels_out {B : Prop} {D : Dims} (hD : DimsOk D) {j : Jst} (J : JstS B j) (F : FrameS D j) (mem : JpegMem) :
    Outc (JE B) (jpeg_pixels mem j) fun r => ∀ L, r = some L → GoodImage L := by
  unfold jpeg_pixels
  dsimp only
  split
  · split
    · have hN := dims_n hD
      have hcl : (j.comps.take j.imgN).length = D.N := by rw [List.length_take, J.cl, F.imgN]; omega
      have hxy : 4 * D.X * D.Y = D.Y * (D.X * 4) := by ring
      refine Outc.bind (P := fun st : LineSt => List.Forall₂ (ResS D.X) (j.comps.take j.imgN) st.res ∧ PixFill (4 * D.X * D.Y + 1) (D.Y * (D.X * 4)) st.out) ?_ fun st hst => ?_
      · rw [F.imgX, F.imgY]
        refine (Outc.forN (fun y (st : LineSt) => List.Forall₂ (ResS D.X) (j.comps.take j.imgN) st.res ∧ PixFill (4 * D.X * D.Y + 1) (y * (D.X * 4)) st.out) ?_ ?_).mono fun r hr => hr
        · refine ⟨forall2_map fun c hc => ?_, List.length_replicate, fun i hi => by rw [Nat.zero_mul] at hi; omega⟩
          obtain ⟨k, hk⟩ := List.mem_iff_getElem?.mp hc
          rw [List.getElem?_take] at hk
          split at hk
          · rename_i hkn
            rw [F.imgN] at hkn
            exact resS_start hD J F hkn hk
          · cases hk
        · intro y hy st hst
          obtain ⟨h1, h2⟩ := hst
          refine Outc.bind (allRows_out _ _ h1) fun p hp => ?_
          obtain ⟨rs, ls⟩ := p
          obtain ⟨p1, p2, p3⟩ := hp
          dsimp only at p1 p2 p3 ⊢
          have e : 4 * D.X * y = y * (D.X * 4) := by ring
          rw [e]
          refine Outc.bind (colourRow_out F.imgX F.imgN (p2.trans hcl) hN.1 p3 h2 ?_) fun out ho => ?_
          · have : (y + 1) * (D.X * 4) ≤ D.Y * (D.X * 4) := Nat.mul_le_mul_right _ hy
            have e2 : (y + 1) * (D.X * 4) = y * (D.X * 4) + D.X * 4 := by ring
            omega
          · have e2 : (y + 1) * (D.X * 4) = y * (D.X * 4) + D.X * 4 := by ring
            refine ⟨p1, ?_⟩
            rw [e2]
            exact ho
      · intro L e
        injection e with e
        subst e
        refine ⟨?_, ?_, ?_, ?_, ?_⟩
        · show 1 ≤ j.imgX ∧ j.imgX ≤ 65535
          rw [F.imgX]
          exact ⟨hD.x1, hD.x2⟩
        · show 1 ≤ j.imgY ∧ j.imgY ≤ 65535
          rw [F.imgY]
          exact ⟨hD.y1, hD.y2⟩
        · show (if 3 ≤ j.imgN then 3 else 1) = 1 ∨ (if 3 ≤ j.imgN then 3 else 1) = 3
          split
          · exact Or.inr rfl
          · exact Or.inl rfl
        · show st.out.length = 4 * j.imgX * j.imgY + 1
          rw [F.imgX, F.imgY]
          exact hst.2.len
        · show ∀ i < 4 * j.imgX * j.imgY, _
          rw [F.imgX, F.imgY, hxy]
          exact hst.2.val
    · exact fun L e => by cases e
  · exact fun L e => by cases e

theorem load_jpeg_image_out {B : Prop} {s0 : Ctx} (hB : ∀ s, Onward s0 s → (takeBytes 16 s).1.sum = 256 → B) {feof : Ctx → Bool} (hf : EofOk feof) (mem : JpegMem) (prog : CM (Option Model.Loaded)) :
    load_jpeg_image mem feof prog s0 = prog ∨ Outc (JE B) (load_jpeg_image mem feof prog s0) fun r => ∀ L, r = some L → GoodImage L := by
  unfold load_jpeg_image
  have h := decode_jpeg_image_out hB hf (mem := mem)
  cases hd : decode_jpeg_image mem feof (Jst.start s0) with
  | error e =>
    rw [hd] at h
    exact Or.inr h
  | ok r =>
    rw [hd] at h
    rw [ok_bind]
    cases r with
    | none => exact Or.inr fun L e => by cases e
    | some j =>
      dsimp only
      rcases h j rfl with hp | ⟨D, hD, J, F⟩
      · rw [if_pos hp]
        exact Or.inl rfl
      · split
        · exact Or.inl rfl
        · exact Or.inr (jpeg_pixels_out hD J F mem)

end FlatCV
