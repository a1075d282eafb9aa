/-
Properties C35–C38 (binary_closing_disk.c) and the corresponding parts of C09–C11.
-/
import Verif.Lemmas.Morph

namespace FlatCV.Props
open Model Spec

variable {P : Plat} {w h r : Nat} {d : List UInt8}

/-! ### C35: dilation and erosion

`MorphOK P w h r d`: positive dimensions, `w*h` bytes, at most `2^31` pixels, `r ≤ 32767`, and
coordinates plus radius fit `int32_t`.  Outside this range the code has undefined behaviour, see
C38. -/

/-- C35: dilation is white exactly on the pixels within the disk of a white pixel. -/
theorem dilation_correct (ok : MorphOK P w h r d) :
    Yields (fcv_binary_dilation_disk P (some d) w h r)
      (binImg w h (Dilate w h r (White w h d))) :=
  fun hp => dilation_returns ok hp

/-- C35: erosion is white exactly where the whole disk lies in the image and is white. -/
theorem erosion_correct (ok : MorphOK P w h r d) :
    Yields (fcv_binary_erosion_disk P (some d) w h r)
      (binImg w h (Erode w h r (White w h d))) := by
  intro hp
  have := erosion_returns ok false hp
  simp only [NbWhite, Bool.false_eq_true, if_false] at this
  exact this

example : MorphOK .lp64 3 2 1 [0, 255, 7, 0, 0, 255] :=
  ⟨by decide, by decide, by decide, by decide, by decide, by decide, by decide, by decide⟩

/-- The radius-1 disk is the 3×3 square: `1² + 1² ≤ 1.5²`. -/
example : Disk 1 1 1 ∧ ¬ Disk 1 2 0 := by unfold Disk; decide

/-- C35: the outputs contain only black and white. -/
theorem binImg_binary (w h : Nat) (S : Nat → Nat → Prop) : ∀ v ∈ binImg w h S, v = 0 ∨ v = 255 := by
  classical
  intro v hv
  obtain ⟨k, hk, rfl⟩ := List.getElem_of_mem hv
  have hk' : k < w * h * 1 := by have := binImg_length w h S; omega
  obtain ⟨x, y, c, hx, hy, hc, e⟩ := idx3_surj hk'
  have := mkImg_getElem? (f := fun x y (_ : Nat) => if S x y then (255 : UInt8) else 0) hx hy hc
  rw [← e] at this
  have h2 := List.getElem?_eq_getElem hk
  unfold binImg at h2
  rw [this] at h2
  have h3 : (binImg w h S)[k] = if S x y then 255 else 0 := by
    unfold binImg; exact (Option.some.inj h2).symm
  rw [h3]
  by_cases hs : S x y
  · rw [if_pos hs]; exact Or.inr rfl
  · rw [if_neg hs]; exact Or.inl rfl

/-! ### C36: closing -/

theorem closing_yields (ok : MorphOK P w h r d) :
    Yields (fcv_binary_closing_disk P (some d) w h r)
      (binImg w h (ErodeIn w h r (Dilate w h r (White w h d)))) := by
  intro hp
  have hw := ok.w_pos
  have hh := ok.h_pos
  have z : ¬ ((w : Int) ≤ 0 ∨ (h : Int) ≤ 0 ∨ (r : Int) < 0) := by omega
  unfold fcv_binary_closing_disk
  simp only [z, if_false]
  refine callThenFree_returns hp (dilation_returns ok hp) fun h' => ?_
  have ok' : MorphOK P w h r (binImg w h (Dilate w h r (White w h d))) :=
    ⟨ok.w_pos, ok.h_pos, binImg_length _ _ _, ok.size, ok.px_i32, ok.r_small, ok.w_r, ok.h_r⟩
  have := erosion_returns ok' true h'
  rw [binImg_congr (S := fun x y => NbWhite w h (binImg w h _) x y true r)
    (T := ErodeIn w h r (Dilate w h r (White w h d)))] at this
  · exact this
  · intro x y hx hy
    simp only [NbWhite, if_true]
    constructor
    · rintro ⟨_, _, hall⟩
      exact ⟨hx, hy, fun x' y' h1 h2 hd => (white_binImg.1 (hall x' y' h1 h2 hd)).2.2⟩
    · rintro ⟨_, _, hall⟩
      exact ⟨hx, hy, fun x' y' h1 h2 hd => white_binImg.2 ⟨h1, h2, hall x' y' h1 h2 hd⟩⟩

theorem closeSet_extensive (S : Nat → Nat → Prop) (hS : ∀ x y, S x y → x < w ∧ y < h) (x y : Nat)
    (hs : S x y) : ErodeIn w h r (Dilate w h r S) x y := by
  obtain ⟨hx, hy⟩ := hS x y hs
  exact ⟨hx, hy, fun x' y' h1 h2 hd => ⟨h1, h2, x, y, hs, hd⟩⟩

theorem dilate_mono {S T : Nat → Nat → Prop} (hst : ∀ x y, S x y → T x y) (x y : Nat)
    (hd : Dilate w h r S x y) : Dilate w h r T x y := by
  obtain ⟨h1, h2, x', y', hs, hk⟩ := hd
  exact ⟨h1, h2, x', y', hst _ _ hs, hk⟩

theorem erodeIn_mono {S T : Nat → Nat → Prop} (hst : ∀ x y, S x y → T x y) (x y : Nat)
    (hd : ErodeIn w h r S x y) : ErodeIn w h r T x y := by
  obtain ⟨h1, h2, hall⟩ := hd
  exact ⟨h1, h2, fun x' y' a b c => hst _ _ (hall x' y' a b c)⟩

theorem erode_mono {S T : Nat → Nat → Prop} (hst : ∀ x y, S x y → T x y) (x y : Nat)
    (hd : Erode w h r S x y) : Erode w h r T x y := by
  obtain ⟨h1, h2, hall⟩ := hd
  refine ⟨h1, h2, fun dx dy hk => ?_⟩
  obtain ⟨x', y', a, b, c, e, f⟩ := hall dx dy hk
  exact ⟨x', y', a, b, c, e, hst _ _ f⟩

/-- C36: whatever closing returns contains every white pixel of its input, is the same for a
second closing, and grows with its input. -/
theorem closing_is_closing (ok : MorphOK P w h r d) :
    ∃ out, Yields (fcv_binary_closing_disk P (some d) w h r) out ∧
      (∀ x y, White w h d x y → White w h out x y) ∧
      Yields (fcv_binary_closing_disk P (some out) w h r) out := by
  refine ⟨_, closing_yields ok, ?_, ?_⟩
  · intro x y hw
    refine white_binImg.2 ⟨hw.1, hw.2.1, ?_⟩
    exact closeSet_extensive _ (fun x y hh => ⟨hh.1, hh.2.1⟩) x y hw
  · have ok' : MorphOK P w h r (binImg w h (ErodeIn w h r (Dilate w h r (White w h d)))) :=
      ⟨ok.w_pos, ok.h_pos, binImg_length _ _ _, ok.size, ok.px_i32, ok.r_small, ok.w_r, ok.h_r⟩
    have := closing_yields ok'
    rw [binImg_congr (S := ErodeIn w h r (Dilate w h r (White w h (binImg w h _))))
      (T := ErodeIn w h r (Dilate w h r (White w h d)))] at this
    · exact this
    · intro x y hx hy
      constructor
      · rintro ⟨_, _, hall⟩
        refine ⟨hx, hy, fun x' y' h1 h2 hd => ?_⟩
        obtain ⟨_, _, x'', y'', hw, hk⟩ := hall x' y' h1 h2 hd
        exact (white_binImg.1 hw).2.2.2.2 x' y' h1 h2 hk
      · intro hc
        exact closeSet_extensive _ (fun x y hh => ⟨hh.1, hh.2.1⟩) x y
          (white_binImg.2 ⟨hx, hy, hc⟩)

/-- C36: closing is increasing. -/
theorem closing_increasing {d' : List UInt8} (ok : MorphOK P w h r d) (ok' : MorphOK P w h r d')
    (hle : ∀ x y, White w h d x y → White w h d' x y) :
    ∃ out out', Yields (fcv_binary_closing_disk P (some d) w h r) out ∧
      Yields (fcv_binary_closing_disk P (some d') w h r) out' ∧
      ∀ x y, White w h out x y → White w h out' x y := by
  refine ⟨_, _, closing_yields ok, closing_yields ok', fun x y hw => ?_⟩
  obtain ⟨hx, hy, hc⟩ := white_binImg.1 hw
  exact white_binImg.2 ⟨hx, hy, erodeIn_mono (dilate_mono hle) x y hc⟩

/-- C36 is about images that change: closing with radius 1 fills the gap in `W . W`. -/
example : ErodeIn 3 1 1 (Dilate 3 1 1 (White 3 1 [255, 0, 255])) 1 0 ∧
    ¬ White 3 1 [255, 0, 255] 1 0 := by
  refine ⟨⟨by omega, by omega, fun x' y' h1 h2 _ => ⟨h1, h2, ?_⟩⟩, ?_⟩
  · have : y' = 0 := by omega
    subst this
    rcases (by omega : x' = 0 ∨ x' = 1 ∨ x' = 2) with rfl | rfl | rfl
    · exact ⟨0, 0, by unfold White; decide, by unfold Disk; decide⟩
    · exact ⟨0, 0, by unfold White; decide, by unfold Disk; decide⟩
    · exact ⟨2, 0, by unfold White; decide, by unfold Disk; decide⟩
  · unfold White; decide

/-! ### C37: opening -/

theorem opening_yields (ok : MorphOK P w h r d) :
    Yields (fcv_binary_opening_disk P (some d) w h r)
      (binImg w h (Dilate w h r (Erode w h r (White w h d)))) := by
  intro hp
  have hw := ok.w_pos
  have hh := ok.h_pos
  have z : ¬ ((w : Int) ≤ 0 ∨ (h : Int) ≤ 0 ∨ (r : Int) < 0) := by omega
  unfold fcv_binary_opening_disk
  simp only [z, if_false]
  refine callThenFree_returns hp (erosion_correct ok hp) fun h' => ?_
  have ok' : MorphOK P w h r (binImg w h (Erode w h r (White w h d))) :=
    ⟨ok.w_pos, ok.h_pos, binImg_length _ _ _, ok.size, ok.px_i32, ok.r_small, ok.w_r, ok.h_r⟩
  have := dilation_returns ok' h'
  rw [binImg_congr (S := Dilate w h r (White w h (binImg w h _)))
    (T := Dilate w h r (Erode w h r (White w h d)))] at this
  · exact this
  · intro x y hx hy
    constructor
    · exact dilate_mono (fun a b hw => (white_binImg.1 hw).2.2) x y
    · exact dilate_mono (fun a b hw => white_binImg.2 ⟨hw.1, hw.2.1, hw⟩) x y

theorem open_anti (S : Nat → Nat → Prop) (x y : Nat) (ho : Dilate w h r (Erode w h r S) x y) :
    S x y := by
  obtain ⟨_, _, x', y', ⟨_, _, hall⟩, hk⟩ := ho
  obtain ⟨a, b, ea, eb, _, _, hs⟩ := hall _ _ hk
  have e1 : a = x := by omega
  have e2 : b = y := by omega
  rw [← e1, ← e2]; exact hs

/-- C37: opening never adds white pixels and is idempotent. -/
theorem opening_is_opening (ok : MorphOK P w h r d) :
    ∃ out, Yields (fcv_binary_opening_disk P (some d) w h r) out ∧
      (∀ x y, White w h out x y → White w h d x y) ∧
      Yields (fcv_binary_opening_disk P (some out) w h r) out := by
  refine ⟨_, opening_yields ok, ?_, ?_⟩
  · intro x y hw
    exact open_anti _ x y (white_binImg.1 hw).2.2
  · have ok' : MorphOK P w h r (binImg w h (Dilate w h r (Erode w h r (White w h d)))) :=
      ⟨ok.w_pos, ok.h_pos, binImg_length _ _ _, ok.size, ok.px_i32, ok.r_small, ok.w_r, ok.h_r⟩
    have := opening_yields ok'
    rw [binImg_congr (S := Dilate w h r (Erode w h r (White w h (binImg w h _))))
      (T := Dilate w h r (Erode w h r (White w h d)))] at this
    · exact this
    · intro x y hx hy
      constructor
      · intro ho
        exact (white_binImg.1 (open_anti _ x y ho)).2.2
      · rintro ⟨_, _, x', y', he, hk⟩
        refine ⟨hx, hy, x', y', ⟨he.1, he.2.1, fun dx dy hd => ?_⟩, hk⟩
        obtain ⟨a, b, ea, eb, ha, hb, hw⟩ := he.2.2 dx dy hd
        refine ⟨a, b, ea, eb, ha, hb, white_binImg.2 ⟨ha, hb, ha, hb, x', y', he, ?_⟩⟩
        have e1 : (a : Int) - x' = dx := by omega
        have e2 : (b : Int) - y' = dy := by omega
        rw [e1, e2]; exact hd

/-- C37: opening is increasing. -/
theorem opening_increasing {d' : List UInt8} (ok : MorphOK P w h r d) (ok' : MorphOK P w h r d')
    (hle : ∀ x y, White w h d x y → White w h d' x y) :
    ∃ out out', Yields (fcv_binary_opening_disk P (some d) w h r) out ∧
      Yields (fcv_binary_opening_disk P (some d') w h r) out' ∧
      ∀ x y, White w h out x y → White w h out' x y := by
  refine ⟨_, _, opening_yields ok, opening_yields ok', fun x y hw => ?_⟩
  obtain ⟨hx, hy, hc⟩ := white_binImg.1 hw
  exact white_binImg.2 ⟨hx, hy, dilate_mono (erode_mono hle) x y hc⟩

/-- Radius 0 still removes nothing, radius 1 removes a lone pixel. -/
example : ¬ Erode 3 3 1 (White 3 3 [0, 0, 0, 0, 255, 0, 0, 0, 0]) 1 1 := by
  rintro ⟨_, _, hall⟩
  obtain ⟨a, b, ea, eb, _, _, _, _, hv⟩ := hall 1 0 (by unfold Disk; decide)
  have e1 : a = 2 := by omega
  have e2 : b = 1 := by omega
  subst e1 e2
  exact absurd hv (by decide)

/-! ### C38: large radii -/

/-- The property as stated: no undefined behaviour for any accepted radius. -/
def MorphologyAcceptsAnyRadius : Prop :=
  ∀ (P : Plat) (w h r : Nat) (d : List UInt8), Img P w h 1 d → w * h ≤ 2 ^ 31 →
    w < 2 ^ 31 → h < 2 ^ 31 → r < 2 ^ 31 → ∀ hp,
    HOk (fcv_binary_dilation_disk P (some d) w h r) hp (fun _ _ => True) ∧
    HOk (fcv_binary_erosion_disk P (some d) w h r) hp (fun _ _ => True)

theorem inDisk_overflow (hr : 32768 ≤ r) :
    inDisk (r : Int) (((0 : Nat) : Int) - r) (((0 : Nat) : Int) - r) = .error .signedOverflow := by
  have e : (((0 : Nat) : Int) - r) * (((0 : Nat) : Int) - r) = (r : Int) * r := by push_cast; ring
  have h1 : (32768 : Int) * 32768 ≤ (r : Int) * r := by
    have : (32768 : Int) ≤ r := by omega
    nlinarith
  unfold inDisk
  rw [e]
  by_cases hb : (r : Int) * r < 2147483648
  · rw [i32_ok (by unfold IsI32; omega)]
    simp only [ok_bind]
    rw [i32_err (by unfold IsI32; omega)]
    rfl
  · rw [i32_err (by unfold IsI32; omega)]
    rfl

/-- C38 fails: from radius 32768 on, erosion of *every* image overflows `int32_t` in the very
first disk iteration. -/
theorem erosion_large_radius_overflows (im : Img P w h 1 d) (hr : 32768 ≤ r) {hp : Heap}
    (hf : hp.fails hp.next = false) :
    fcv_binary_erosion_disk P (some d) w h r hp = .error (.comp .signedOverflow) := by
  have hw := im.w_pos
  have hh := im.h_pos
  have hsz : w * h ≤ P.szMax := by have := im.size; have := im.len; omega
  have z : ¬ ((w : Int) ≤ 0 ∨ (h : Int) ≤ 0 ∨ (r : Int) < 0) := by omega
  have hg1 : ¬ w > P.szMax / h := P.guard_of_mul_le hh hsz
  have e1 : P.sz (w * h) = w * h := P.sz_eq' hsz
  unfold fcv_binary_erosion_disk binary_erosion_disk_internal
  simp only [z, if_false, Int.toNat_natCast, hg1, e1]
  refine allocFill_err hf ?_
  have hms := memset_all (List.replicate (w * h) (none : Option UInt8)) 0
  simp only [List.length_replicate] at hms
  rw [hms]
  simp only [ok_bind]
  refine forN_err0 hh (forN_err0 hw ?_)
  have h0 : idx32 ((0 : Nat) : Int) w ((0 : Nat) : Int) = .ok 0 := by
    simp [idx32, i32]
  rw [h0]
  simp only [ok_bind]
  have hc : canErode d w h r ((0 : Nat) : Int) ((0 : Nat) : Int) false
      = .error .signedOverflow := by
    unfold canErode
    simp only [Int.toNat_natCast]
    refine forBreak_err0 (by omega) ?_
    rw [forBreak_err0 (e := .signedOverflow) (by omega)]
    · rfl
    · rw [inDisk_overflow hr]
      rfl
  rw [hc]
  rfl

/-- C38 fails for dilation as well, on any image whose first pixel is white. -/
theorem dilation_large_radius_overflows (im : Img P w h 1 d) (hv : d[0]? = some 255)
    (hr : 32768 ≤ r) {hp : Heap} (hf : hp.fails hp.next = false) :
    fcv_binary_dilation_disk P (some d) w h r hp = .error (.comp .signedOverflow) := by
  have hw := im.w_pos
  have hh := im.h_pos
  have hsz : w * h ≤ P.szMax := by have := im.size; have := im.len; omega
  have z : ¬ ((w : Int) ≤ 0 ∨ (h : Int) ≤ 0 ∨ (r : Int) < 0) := by omega
  have hg1 : ¬ w > P.szMax / h := P.guard_of_mul_le hh hsz
  have e1 : P.sz (w * h) = w * h := P.sz_eq' hsz
  unfold fcv_binary_dilation_disk
  simp only [z, if_false, Int.toNat_natCast, hg1, e1]
  refine allocFill_err hf ?_
  have hms := memset_all (List.replicate (w * h) (none : Option UInt8)) 0
  simp only [List.length_replicate] at hms
  rw [hms]
  simp only [ok_bind]
  refine forN_err0 hh (forN_err0 hw ?_)
  have h0 : idx32 ((0 : Nat) : Int) w ((0 : Nat) : Int) = .ok 0 := by
    simp [idx32, i32]
  have h1 : rdInZ d 0 = .ok 255 := by
    unfold rdInZ
    rw [if_pos (by omega)]
    exact rdIn_ok hv
  rw [h0]
  simp only [ok_bind]
  rw [h1]
  simp only [ok_bind, if_true]
  refine forN_err0 (by omega) (forN_err0 (by omega) ?_)
  rw [inDisk_overflow hr]
  rfl

theorem not_morphologyAcceptsAnyRadius : ¬ MorphologyAcceptsAnyRadius := by
  intro hall
  have im : Img .lp64 1 1 1 [255] := ⟨by decide, by decide, by decide, by decide, by decide, by decide⟩
  obtain ⟨_, ⟨a, h', e, _⟩⟩ := hall .lp64 1 1 32768 [255] im (by decide) (by decide) (by decide)
    (by decide) Heap.fresh
  rw [erosion_large_radius_overflows im (by omega) rfl] at e
  cases e

/-- C38, the part that holds: every radius up to 32767 on images of at most `2^31 - 32768`
rows and columns. -/
theorem morphology_radius_partial (im : Img P w h 1 d) (hpx : w * h ≤ 2 ^ 31) (hr : r ≤ 32767)
    (hw : w + r ≤ 2 ^ 31) (hh : h + r ≤ 2 ^ 31) (hp : Heap) :
    HOk (fcv_binary_dilation_disk P (some d) w h r) hp (fun _ _ => True) ∧
    HOk (fcv_binary_erosion_disk P (some d) w h r) hp (fun _ _ => True) ∧
    HOk (fcv_binary_closing_disk P (some d) w h r) hp (fun _ _ => True) ∧
    HOk (fcv_binary_opening_disk P (some d) w h r) hp (fun _ _ => True) := by
  have hsz : w * h ≤ P.szMax := by have := im.size; have := im.len; omega
  have ok : MorphOK P w h r d := ⟨im.w_pos, im.h_pos, by simpa using im.len, hsz, by omega, hr,
    by omega, by omega⟩
  exact ⟨HOk.mono (dilation_correct ok hp) fun _ _ _ => trivial,
    HOk.mono (erosion_correct ok hp) fun _ _ _ => trivial,
    HOk.mono (closing_yields ok hp) fun _ _ _ => trivial,
    HOk.mono (opening_yields ok hp) fun _ _ _ => trivial⟩

/-! ### C09: rejected arguments -/

/-- C09: NULL data, a non-positive dimension or a negative radius give NULL. -/
theorem morphology_rejects (P : Plat) (d : Option (List UInt8)) (w h r : Int) (hp : Heap)
    (hbad : d = none ∨ w ≤ 0 ∨ h ≤ 0 ∨ r < 0) :
    Rejects (fcv_binary_dilation_disk P d w h r) hp ∧
    Rejects (fcv_binary_erosion_disk P d w h r) hp ∧
    Rejects (fcv_binary_closing_disk P d w h r) hp ∧
    Rejects (fcv_binary_opening_disk P d w h r) hp := by
  unfold Rejects fcv_binary_dilation_disk fcv_binary_erosion_disk binary_erosion_disk_internal
    fcv_binary_closing_disk fcv_binary_opening_disk
  cases d with
  | none => exact ⟨rfl, rfl, rfl, rfl⟩
  | some d =>
    have hz : w ≤ 0 ∨ h ≤ 0 ∨ r < 0 := by simpa using hbad
    simp only [hz, if_true]
    exact ⟨rfl, rfl, rfl, rfl⟩

end FlatCV.Props
