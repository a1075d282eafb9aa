/-
Properties C51, C52, C89 and the corresponding parts of C09–C11: edge detection.
-/
import Verif.Lemmas.SobelCall
import Verif.Props.Otsu

namespace FlatCV.Props
open Model

variable {P : Plat} {w h : Nat} {d : List UInt8}

/-! ### C09: rejected arguments -/

/-- C09: no image, an empty image, no channels: NULL, nothing allocated. -/
theorem sobel_rejects (P : Plat) (w h ch : Nat) (data : Option (List UInt8))
    (hbad : data = none ∨ w = 0 ∨ h = 0 ∨ ch = 0) (hp : Heap) :
    Rejects (fcv_sobel_edge_detection P w h ch data) hp := by
  unfold Rejects fcv_sobel_edge_detection
  cases data with
  | none => rfl
  | some d =>
    have : w = 0 ∨ h = 0 ∨ ch = 0 := by simpa using hbad
    simp only [this, if_true]
    rfl

/-- C09: so is an image whose intermediate buffer of doubles would not fit memory. -/
theorem sobel_too_large (P : Plat) {w h ch : Nat} (d : List UInt8) (hh : 0 < h)
    (hbig : P.szMax < w * h * 8) (hp : Heap) :
    Rejects (fcv_sobel_edge_detection P w h ch (some d)) hp := by
  unfold Rejects fcv_sobel_edge_detection
  simp only []
  by_cases hc : w = 0 ∨ h = 0 ∨ ch = 0
  · rw [if_pos hc]
    rfl
  rw [if_neg hc]
  by_cases g1 : w > P.szMax / h
  · rw [if_pos g1]
    rfl
  rw [if_neg g1]
  have : w * h ≤ P.szMax := (Nat.le_div_iff_mul_le hh).1 (Nat.not_lt.1 g1)
  rw [P.sz_eq' this, if_pos (by omega)]
  rfl

example : Plat.lp64.szMax < 4294967295 * 4294967295 * 8 := by decide

/-! ### C51, C89: a normalised edge map -/

theorem sobel_gray_eq (hw : 0 < w) (hh : 0 < h) (h8 : w * h * 8 ≤ P.szMax) :
    fcv_sobel_edge_detection P w h 1 (some d) = sobelBody P w h (w * h) d := by
  have g1 : ¬ w > P.szMax / h := P.guard_of_mul_le hh (by omega)
  unfold fcv_sobel_edge_detection
  have z : ¬ (w = 0 ∨ h = 0 ∨ (1 : Nat) = 0) := by omega
  simp only [z, if_false, g1, P.sz_eq' (show w * h ≤ P.szMax by omega),
    show ¬ w * h > P.szMax / 8 by omega, if_true]

theorem sobel_multi_eq {ch : Nat} (hw : 0 < w) (hh : 0 < h) (h8 : w * h * 8 ≤ P.szMax) (h0 : ch ≠ 0)
    (h1 : ch ≠ 1) :
    fcv_sobel_edge_detection P w h ch (some d) =
      callThenFree (fcv_rgba_to_grayscale P w h (some d)) (sobelBody P w h (w * h)) := by
  have g1 : ¬ w > P.szMax / h := P.guard_of_mul_le hh (by omega)
  unfold fcv_sobel_edge_detection
  have z : ¬ (w = 0 ∨ h = 0 ∨ ch = 0) := by omega
  simp only [z, if_false, g1, P.sz_eq' (show w * h ≤ P.szMax by omega),
    show ¬ w * h > P.szMax / 8 by omega, h1]

/-- The gray image edge detection works on: the bytes themselves, or the documented luma. -/
def edgeInput (w h ch : Nat) (d : List UInt8) : List UInt8 :=
  if ch = 1 then d else Spec.gray (w * h) d

/-- Whatever the size of the image, what is returned is an edge map of some strengths. -/
theorem sobel_run {ch : Nat} (hch : ch = 1 ∨ ch = 4) (im : Img P w h ch d) (h8 : w * h * 8 ≤ P.szMax) :
    ∃ out, Yields (fcv_sobel_edge_detection P w h ch (some d)) out ∧
      Spec.EdgeMap w h (codeSq w h (edgeInput w h ch d)) out ∧
      Spec.EdgeScaled w h (codeSq w h (edgeInput w h ch d)) out := by
  rcases hch with rfl | rfl
  · rw [sobel_gray_eq im.w_pos im.h_pos h8]
    exact sobelBody_ok (by simpa using im.len) (by omega) im.w_pos im.h_pos im.w_u32 im.h_u32
  · rw [sobel_multi_eq im.w_pos im.h_pos h8 (by decide) (by decide)]
    obtain ⟨out, y, m, s⟩ := sobelBody_ok (P := P) (g := Spec.gray (w * h) d) (w := w) (h := h)
      (by simp) (by omega) im.w_pos im.h_pos im.w_u32 im.h_u32
    refine ⟨out, ?_, m, s⟩
    intro hp
    exact callThenFree_returns hp (rgba_to_grayscale_correct im hp) y

theorem edgeMap_congr {S T : Nat → Nat → Int} {out : List UInt8}
    (e : ∀ x, x < w → ∀ y, y < h → S x y = T x y) (hm : Spec.EdgeMap w h S out) :
    Spec.EdgeMap w h T out := by
  refine ⟨hm.len, fun c x hx y hy => hm.flat ?_ x hx y hy, fun x hx y hy c => hm.weakest x hx y hy ?_,
    fun x hx y hy c1 c2 => hm.strongest x hx y hy ?_ ?_,
    fun x hx y hy x' hx' y' hy' c => hm.mono x hx y hy x' hx' y' hy' ?_⟩
  · intro x hx y hy x' hx' y' hy'
    rw [e x hx y hy, e x' hx' y' hy']
    exact c x hx y hy x' hx' y' hy'
  · intro x' hx' y' hy'
    rw [e x hx y hy, e x' hx' y' hy']
    exact c x' hx' y' hy'
  · intro x' hx' y' hy'
    rw [e x hx y hy, e x' hx' y' hy']
    exact c1 x' hx' y' hy'
  · obtain ⟨x', hx', y', hy', c⟩ := c2
    exact ⟨x', hx', y', hy', by rw [e x hx y hy, e x' hx' y' hy']; exact c⟩
  · rw [e x hx y hy, e x' hx' y' hy']
    exact c

theorem edgeScaled_congr {S T : Nat → Nat → Int} {out : List UInt8}
    (e : ∀ x, x < w → ∀ y, y < h → S x y = T x y) (hm : Spec.EdgeScaled w h S out) :
    Spec.EdgeScaled w h T out := by
  rintro lo hi hlt ⟨x1, hx1, y1, hy1, e1⟩ ⟨x2, hx2, y2, hy2, e2⟩ hb x hx y hy
  rw [← e x hx y hy]
  refine hm lo hi hlt ⟨x1, hx1, y1, hy1, by rw [e x1 hx1 y1 hy1, e1]⟩
    ⟨x2, hx2, y2, hy2, by rw [e x2 hx2 y2 hy2, e2]⟩ ?_ x hx y hy
  intro x hx y hy
  rw [e x hx y hy]
  exact hb x hx y hy

/-- C51: edge detection returns a normalised edge map of the image. -/
def SobelNormalised : Prop :=
  ∀ (P : Plat) (w h ch : Nat) (d : List UInt8), ch = 1 ∨ ch = 4 → Img P w h ch d →
    w * h * 8 ≤ P.szMax →
    ∃ out, Yields (fcv_sobel_edge_detection P w h ch (some d)) out ∧
      Spec.EdgeMap w h (Spec.edgeSq w h (edgeInput w h ch d)) out

/-- C51 for images with sides below `2^31`: one byte per pixel; a flat image becomes black;
otherwise the strongest edges are exactly 255, the weakest exactly 0, and a stronger edge never
gives a smaller byte. -/
theorem sobel_normalised_partial {ch : Nat} (hch : ch = 1 ∨ ch = 4) (im : Img P w h ch d)
    (h8 : w * h * 8 ≤ P.szMax) (hw : w < 2147483648) (hh : h < 2147483648) :
    ∃ out, Yields (fcv_sobel_edge_detection P w h ch (some d)) out ∧
      Spec.EdgeMap w h (Spec.edgeSq w h (edgeInput w h ch d)) out := by
  obtain ⟨out, y, m, _⟩ := sobel_run hch im h8
  exact ⟨out, y, edgeMap_congr (fun x hx y hy => codeSq_eq hw hh _ hx hy) m⟩

/-- C89 for images with sides below `2^31`: every byte is the edge strength rescaled linearly from
the range of the image to 0 … 255 and cut to an integer, up to a rounding error of 0.0001. -/
theorem sobel_scaled_partial {ch : Nat} (hch : ch = 1 ∨ ch = 4) (im : Img P w h ch d)
    (h8 : w * h * 8 ≤ P.szMax) (hw : w < 2147483648) (hh : h < 2147483648) :
    ∃ out, Yields (fcv_sobel_edge_detection P w h ch (some d)) out ∧
      Spec.EdgeScaled w h (Spec.edgeSq w h (edgeInput w h ch d)) out := by
  obtain ⟨out, y, _, m⟩ := sobel_run hch im h8
  exact ⟨out, y, edgeScaled_congr (fun x hx y hy => codeSq_eq hw hh _ hx hy) m⟩

example : Img .lp64 3 1 1 [0, 0, 200] ∧ 3 * 1 * 8 ≤ Plat.lp64.szMax ∧
    Spec.edgeSq 3 1 (edgeInput 3 1 1 [0, 0, 200]) 0 0 = 0 ∧
    Spec.edgeSq 3 1 (edgeInput 3 1 1 [0, 0, 200]) 1 0 = 640000 := by
  refine ⟨⟨by decide, by decide, by decide, by decide, by decide, by decide⟩, by decide, ?_, ?_⟩ <;>
  rfl

example : Img .lp64 1 2 4 [1, 2, 3, 4, 200, 100, 50, 0] ∧ 1 * 2 * 8 ≤ Plat.lp64.szMax :=
  ⟨⟨by decide, by decide, by decide, by decide, by decide, by decide⟩, by decide⟩

/-- C51, in particular: an image of one colour has no edges. -/
theorem sobel_uniform (im : Img P w h 1 d) (h8 : w * h * 8 ≤ P.szMax) {v : UInt8}
    (hv : ∀ x, x < w → ∀ y, y < h → px w 1 d x y 0 = v) :
    Yields (fcv_sobel_edge_detection P w h 1 (some d)) (List.replicate (w * h) 0) := by
  obtain ⟨out, y, m, _⟩ := sobel_run (Or.inl rfl) im h8
  have hz : ∀ x, x < w → ∀ y, y < h → codeSq w h (edgeInput w h 1 d) x y = 0 := by
    intro x _ y _
    unfold codeSq Spec.sobelSq edgeInput
    rw [if_pos rfl]
    have rx := fun k => (sobelCoord_range (x := x) im.w_pos im.w_u32 k).2
    have ry := fun k => (sobelCoord_range (x := y) im.h_pos im.h_u32 k).2
    simp only [hv _ (rx _) _ (ry _)]
    ring
  have e : out = List.replicate (w * h) 0 := by
    refine img_ext (w := w) (h := h) (ch := 1) (by rw [m.len, Nat.mul_one]) (by simp) ?_
    intro x y c hx hy hc
    have : c = 0 := by omega
    subst this
    rw [m.flat (fun x hx y hy x' hx' y' hy' => by rw [hz x hx y hy, hz x' hx' y' hy']) x hx y hy]
    have := idx_lt hx hy
    unfold px
    simp [this]
  rw [← e]
  exact y

/-- A bright pixel at the left end of a very wide row. -/
def farImage (w : Nat) : List UInt8 := mkImg w 1 1 fun x _ _ => if x = 0 then 255 else 0

/-- C51 is false for a side of `2^31`: the right neighbour of the last column is looked up at the
left end, so the last pixel of a row that is bright only at the other end counts as an edge. -/
theorem sobel_wide_wrong {w : Nat} (hw : w = 2147483648) :
    ¬ ∃ out, Yields (fcv_sobel_edge_detection .lp64 w 1 1 (some (farImage w))) out ∧
      Spec.EdgeMap w 1 (Spec.edgeSq w 1 (farImage w)) out := by
  rintro ⟨out, y, m⟩
  have hsz : Plat.lp64.szMax = 18446744073709551615 := by decide
  have hlen : (farImage w).length = w * 1 * 1 := mkImg_length _ _ _ _
  have im : Img .lp64 w 1 1 (farImage w) :=
    ⟨by omega, by omega, by unfold IsU32; omega, by unfold IsU32; omega, hlen, by rw [hlen]; omega⟩
  obtain ⟨out', y', m', _⟩ := sobel_run (Or.inl rfl) im (by omega)
  obtain rfl := Yields.unique y y'
  have hv : ∀ x, x < w → px w 1 (farImage w) x 0 0 = if x = 0 then 255 else 0 := by
    intro x hx
    unfold farImage
    rw [px_mkImg hx (by omega) (by omega)]
  have cy : ∀ k, codeNear 1 0 k = 0 := fun k => by
    have := (sobelCoord_range (n := 1) (x := 0) (by omega) (by unfold IsU32; omega) k).2
    omega
  have cw : ∀ x k, codeNear w x k < w := fun x k =>
    (sobelCoord_range (x := x) im.w_pos im.w_u32 k).2
  have hS : ∀ x, codeSq w 1 (edgeInput w 1 1 (farImage w)) x 0 =
      16 * (((px w 1 (farImage w) (codeNear w x 1) 0 0).toNat : Int) -
        ((px w 1 (farImage w) (codeNear w x (-1)) 0 0).toNat : Int)) ^ 2 := by
    intro x
    unfold codeSq Spec.sobelSq edgeInput
    rw [if_pos rfl]
    simp only [cy]
    ring
  have hlast : codeNear w (w - 1) 1 = 0 ∧ codeNear w (w - 1) (-1) ≠ 0 := by
    subst hw
    decide
  have hval : ∀ x, x < w → ((px w 1 (farImage w) x 0 0).toNat : Int) = 255 ∨
      ((px w 1 (farImage w) x 0 0).toNat : Int) = 0 := by
    intro x hx
    rw [hv x hx]
    split_ifs
    · left; rfl
    · right; rfl
  have hl : codeSq w 1 (edgeInput w 1 1 (farImage w)) (w - 1) 0 = 1040400 := by
    rw [hS, hv _ (cw _ _), hv _ (cw _ _), if_pos hlast.1, if_neg hlast.2]
    rfl
  have h1 : px w 1 out (w - 1) 0 0 = 255 := by
    refine m'.strongest (w - 1) (by omega) 0 (by omega) ?_ ?_
    · intro x' hx' y' hy'
      have : y' = 0 := by omega
      subst this
      rw [hl, hS]
      rcases hval _ (cw x' 1) with e1 | e1 <;> rcases hval _ (cw x' (-1)) with e2 | e2 <;>
        rw [e1, e2] <;> norm_num
    · refine ⟨5, by omega, 0, by omega, ?_⟩
      have h5 : codeNear w 5 1 ≠ 0 ∧ codeNear w 5 (-1) ≠ 0 := by
        subst hw
        decide
      rw [hl, hS, hv _ (cw _ _), hv _ (cw _ _), if_neg h5.1, if_neg h5.2]
      decide
  have h2 : px w 1 out (w - 1) 0 0 = 0 := by
    refine m.weakest (w - 1) (by omega) 0 (by omega) ?_
    intro x' _ y' _
    have : Spec.edgeSq w 1 (farImage w) (w - 1) 0 = 0 := by
      unfold Spec.edgeSq Spec.sobelSq
      have e1 : min (w - 1 + 1) (w - 1) = w - 1 := by omega
      have e2 : min (0 + 1) (1 - 1) = 0 := rfl
      simp only [e1, e2, Nat.zero_sub, hv _ (show w - 1 < w by omega), hv _ (show w - 1 - 1 < w by omega),
        show ¬ w - 1 = 0 by omega, show ¬ w - 1 - 1 = 0 by omega, if_false]
      rfl
    rw [this]
    unfold Spec.edgeSq Spec.sobelSq
    exact add_nonneg (mul_self_nonneg _) (mul_self_nonneg _)
  rw [h1] at h2
  cases h2

/-- C51 as stated does not hold. -/
theorem not_sobelNormalised : ¬ SobelNormalised := by
  intro hall
  have hsz : Plat.lp64.szMax = 18446744073709551615 := by decide
  obtain ⟨w, hw⟩ : ∃ w : Nat, w = 2147483648 := ⟨_, rfl⟩
  have hlen : (farImage w).length = w * 1 * 1 := mkImg_length _ _ _ _
  exact sobel_wide_wrong hw (hall .lp64 w 1 1 (farImage w) (Or.inl rfl)
    ⟨by omega, by omega, by unfold IsU32; omega, by unfold IsU32; omega, hlen, by rw [hlen]; omega⟩
    (by omega))

/-! ### C52: memory accesses -/

/-- C52: edge detection stays inside the documented input. -/
def SobelInBounds : Prop :=
  ∀ (P : Plat) (w h ch : Nat) (d : List UInt8), ch = 1 ∨ ch = 3 ∨ ch = 4 → Img P w h ch d →
    ∀ hp, fcv_sobel_edge_detection P w h ch (some d) hp ≠ .error (.comp .oobRead)

/-- C52 for 1 and 4 channels: no access out of bounds, nothing uninitialised, no leak, whatever
allocation fails, and the whole result is initialised. -/
theorem sobel_safe_partial {ch : Nat} (hch : ch = 1 ∨ ch = 4) (im : Img P w h ch d)
    (h8 : w * h * 8 ≤ P.szMax) :
    ∃ out, out.length = w * h ∧ Yields (fcv_sobel_edge_detection P w h ch (some d)) out := by
  obtain ⟨out, y, m, _⟩ := sobel_run hch im h8
  exact ⟨out, m.len, y⟩

/-- C52 is false for 3 channels: with two pixels or more the RGB image is read as RGBA, past its
end. -/
theorem sobel_rgb_reads_past (im : Img P w h 3 d) (h2 : 2 ≤ w * h) (h8 : w * h * 8 ≤ P.szMax)
    {hp : Heap} (hf : hp.fails hp.next = false) :
    fcv_sobel_edge_detection P w h 3 (some d) hp = .error (.comp .oobRead) := by
  rw [sobel_multi_eq im.w_pos im.h_pos h8 (by decide) (by decide)]
  have hd := im.len
  have g1 : ¬ w > P.szMax / h := P.guard_of_mul_le im.h_pos (by omega)
  have key : fcv_rgba_to_grayscale P w h (some d) hp = .error (.comp .oobRead) := by
    unfold fcv_rgba_to_grayscale
    simp only [Nat.ne_of_gt im.w_pos, Nat.ne_of_gt im.h_pos, or_self, if_false, g1,
      P.sz_eq' (show w * h ≤ P.szMax by omega)]
    refine allocFill_err hf ?_
    have hi : (3 * (w * h) + 1) / 4 < w * h := by omega
    have pre : Ok (forN ((3 * (w * h) + 1) / 4) (List.replicate (w * h) (none : Option UInt8)) fun i out => do
          let rgba_index := P.sz (i * 4)
          let r ← rdIn d rgba_index
          let g ← rdIn d (P.sz (rgba_index + 1))
          let b ← rdIn d (P.sz (rgba_index + 2))
          wr out i (lumaByte r g b)) (fun s => s.length = w * h) := by
      refine forN_ok (fun _ (s : Cells UInt8) => s.length = w * h) (by simp) ?_
      intro i hi' s hs
      have r : ∀ c, c < 3 → ∃ v, rdIn d (i * 4 + c) = .ok v := by
        intro c hc
        have : i * 4 + c < d.length := by omega
        exact ⟨d[i * 4 + c], rdIn_ok (List.getElem?_eq_getElem this)⟩
      obtain ⟨v0, e0⟩ := r 0 (by omega)
      obtain ⟨v1, e1⟩ := r 1 (by omega)
      obtain ⟨v2, e2⟩ := r 2 (by omega)
      rw [Nat.add_zero] at e0
      dsimp only
      rw [P.sz_eq' (n := i * 4) (by omega), P.sz_eq' (n := i * 4 + 1) (by omega),
        P.sz_eq' (n := i * 4 + 2) (by omega), e0, ok_bind, e1, ok_bind, e2, ok_bind,
        wr_ok (by omega)]
      exact Ok.pure (by simp [hs])
    obtain ⟨t, et, _⟩ := pre
    refine forN_err hi et ?_
    generalize hi0 : (3 * (w * h) + 1) / 4 = i at *
    have r : ∀ k, d.length ≤ k → rdIn d k = .error .oobRead := by
      intro k hk
      unfold rdIn
      rw [List.getElem?_eq_none hk]
    have r2 := r (i * 4 + 2) (by omega)
    rw [P.sz_eq' (n := i * 4) (by omega), P.sz_eq' (n := i * 4 + 1) (by omega),
      P.sz_eq' (n := i * 4 + 2) (by omega), r2]
    by_cases c0 : i * 4 < d.length
    · rw [rdIn_ok (List.getElem?_eq_getElem c0), ok_bind]
      by_cases c1 : i * 4 + 1 < d.length
      · rw [rdIn_ok (List.getElem?_eq_getElem c1)]
        rfl
      · rw [r _ (by omega)]
        rfl
    · rw [r _ (by omega)]
      rfl
  unfold callThenFree
  rw [hm_bind, key]

example : Img .lp64 2 1 3 [1, 2, 3, 4, 5, 6] ∧ 2 ≤ 2 * 1 ∧ 2 * 1 * 8 ≤ Plat.lp64.szMax :=
  ⟨⟨by decide, by decide, by decide, by decide, by decide, by decide⟩, by decide, by decide⟩

/-- C52 as stated does not hold. -/
theorem not_sobelInBounds : ¬ SobelInBounds := fun hall =>
  hall .lp64 2 1 3 [1, 2, 3, 4, 5, 6] (by decide)
    ⟨by decide, by decide, by decide, by decide, by decide, by decide⟩ Heap.fresh
    (sobel_rgb_reads_past ⟨by decide, by decide, by decide, by decide, by decide, by decide⟩
      (by decide) (by decide) rfl)

end FlatCV.Props
