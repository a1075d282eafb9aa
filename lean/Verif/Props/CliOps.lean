/-
C62, C63: the rotate and crop operations of the command line tool.
-/
import Verif.Spec.CliRun
import Verif.Model.Cli
import Verif.Props.Geometry
import Verif.Lemmas.CliParse
import Verif.Lemmas.Dist

namespace FlatCV.Props
open FlatCV FlatCV.Model FlatCV.Spec

variable {P : Plat} {M : MathLib} {L : Lib} {w h : Nat} {d : List UInt8} {op : PipelineOp}

theorem gives_sameSize {m : HM (Option (Buf UInt8))} {out : List UInt8} (hy : Yields m out) : Gives (sameSize w h m) w h w h out := by
  intro hp
  refine HOk.bind (hy hp) ?_
  intro r h' hr
  refine HOk.pure ?_
  cases r with
  | none => exact ⟨hr, rfl⟩
  | some b => exact ⟨hr.1, hr.2, rfl⟩

theorem gives_givenSize {m : HM (Option (Buf UInt8))} {out : List UInt8} {w' h' : Nat} (hw : w' < 2147483648) (hh : h' < 2147483648)
    (hy : Yields m out) : Gives (givenSize w h w' h' m) w h w' h' out := by
  intro hp
  refine HOk.bind (hy hp) ?_
  intro r h' hr
  cases r with
  | none => exact HOk.pure ⟨hr, rfl⟩
  | some b => exact HOk.pure ⟨hr.1, hr.2, by rw [i32OfU32_eq hw, i32OfU32_eq hh]⟩

theorem copyOf_yields {n : Nat} (hn : n = d.length) : Yields (copyOf n d) d := by
  intro hp
  unfold copyOf
  refine HOk.bind (HOk.malloc (Q := fun r h' => match r with
    | none => OutOfMemory hp h'
    | some b => FreshResult hp h' b ∧ b.cells = List.replicate n none) ?_ ?_) ?_
  · intro e
    exact ⟨rfl, rfl, by dsimp only; omega, hp.next, by omega, by dsimp only; omega, e⟩
  · intro e
    exact ⟨⟨rfl, rfl, by dsimp only; omega, by dsimp only; omega⟩, rfl⟩
  · intro r h' hr
    cases r with
    | none => exact HOk.pure hr
    | some b =>
      refine HOk.bind (P := fun c h'' => c = d.map some ∧ h'' = h') (HOk.use ?_ ?_) ?_
      · simp [hr.1.1]
      · rw [hr.2, memcpyIn_all d hn]
        exact Ok.pure ⟨rfl, rfl⟩
      · rintro c h'' ⟨rfl, rfl⟩
        exact HOk.pure ⟨hr.1, rfl⟩

theorem toI32_int {x : Int} (hx : IsI32 x) : toI32 (.fin (x : ℚ)) = .ok x := by
  unfold toI32 finiteVal IsI32 at *
  simp only [ok_bind]
  unfold castI32
  rw [castInt_ok (by rw [trunc_int]; omega) (by rw [trunc_int]; omega), trunc_int]

theorem toU32_nat {n : Nat} (hn : n < 4294967296) : toU32 (.fin (n : ℚ)) = .ok n := by
  unfold toU32 finiteVal
  simp only [ok_bind]
  exact castU32_nat hn

theorem _root_.FlatCV.Spec.Picture.uw (p : Picture P w h d) : u32OfInt (w : Int) = w := by
  have := p.w_int
  rw [u32OfInt_eq (by omega) (by omega)]
  omega

theorem _root_.FlatCV.Spec.Picture.uh (p : Picture P w h d) : u32OfInt (h : Int) = h := by
  have := p.h_int
  rw [u32OfInt_eq (by omega) (by omega)]
  omega

theorem sizeOfInt_nat {n : Nat} (hn : n ≤ 2147483647) : sizeOfInt P (n : Int) = n := by
  unfold sizeOfInt
  have := P.mod_ge
  rw [Int.emod_eq_of_lt (by omega) (by omega)]
  omega

theorem use_ok {α β : Type} {v : CM α} {a : α} (e : v = .ok a) {f : α → HM β} : (use [] v >>= f) = f a := by
  subst e
  funext hp
  rfl

/-! ### C62: rotate -/

theorem turned_two (hlen : d.length = w * h * 4) : turned ⟨w, h, d⟩ 2 = ⟨w, h, rot180 w h d⟩ := by
  show Sized.mk w h (rot90 h w (rot90 w h d)) = _
  rw [show rot90 h w (rot90 w h d) = rot180 w h d from ?_]
  refine img_ext (w := w) (h := h) (mkImg_length ..) (mkImg_length ..) fun x y c hx hy hc => ?_
  unfold rot180 rot90
  rw [px_mkImg hx hy hc, px_mkImg hx hy hc, px_mkImg (by omega) (by omega) hc]

theorem turned_three (hlen : d.length = w * h * 4) : turned ⟨w, h, d⟩ 3 = ⟨h, w, rot270 w h d⟩ := by
  show quarter (turned ⟨w, h, d⟩ 2) = _
  rw [turned_two hlen]
  unfold quarter
  dsimp only
  rw [show rot90 w h (rot180 w h d) = rot270 w h d from ?_]
  refine img_ext (w := h) (h := w) (mkImg_length ..) (mkImg_length ..) fun x y c hx hy hc => ?_
  unfold rot180 rot90 rot270
  rw [px_mkImg hx hy hc, px_mkImg hx hy hc, px_mkImg (by omega) (by omega) hc]
  congr 1; omega

theorem apply_rotate (ho : op.operation = "rotate".toList) :
    apply_operation P M L w h op d = rotateOp P w h op d := by
  simp [apply_operation, ho]

/-- C62: for every `int` angle that is a multiple of 90, negative ones included, the rotate operation returns the image turned by
that many quarter turns clockwise (modulo four), with the dimensions of the turned image. -/
theorem rotate_op_turns (p : Picture P w h d) (ho : op.operation = "rotate".toList) (hp : op.has_param = true) {k : Int}
    (hk : IsI32 (90 * k)) (ha : op.param = .fin ((90 * k : Int) : ℚ)) :
    let t := turned ⟨w, h, d⟩ (k % 4).toNat
    Gives (apply_operation P M L w h op d) w h t.w t.h t.d := by
  intro t
  rw [apply_rotate ho]
  unfold rotateOp
  rw [if_pos hp, ha, use_ok (toI32_int hk), p.uw, p.uh]
  dsimp only
  have hang : (Int.tmod (90 * k) 360 + 360).tmod 360 = 90 * (k % 4) := by
    rw [Int.tmod_eq_emod_of_nonneg (a := Int.tmod (90 * k) 360 + 360)]
    · rw [Int.tmod_eq_emod]
      split <;> omega
    · have := Int.lt_tmod_of_pos (90 * k) (b := 360) (by omega)
      omega
  rw [hang]
  have hm := Int.emod_nonneg k (b := 4) (by omega)
  have hl := Int.emod_lt_of_pos k (b := 4) (by omega)
  have hc : k % 4 = 0 ∨ k % 4 = 1 ∨ k % 4 = 2 ∨ k % 4 = 3 := by omega
  have hlen := p.img.len
  have w1 := p.w_int
  have h1 := p.h_int
  rcases hc with e | e | e | e
  · have et : t = ⟨w, h, d⟩ := by simp [t, e, turned]
    rw [et, e]
    simp only [mul_zero, ne_eq, not_true_eq_false, false_and, ↓reduceIte]
    refine gives_sameSize (copyOf_yields ?_)
    have hs := p.img.size
    rw [hlen] at hs
    rw [hlen]
    rw [sizeOfInt_nat (by omega), sizeOfInt_nat (by omega)]
    have hw : w * h ≤ P.szMax := by omega
    rw [P.sz_eq' hw, P.sz_eq' hs]
  · have et : t = ⟨h, w, rot90 w h d⟩ := by simp [t, e, turned, quarter]
    rw [et, e]
    simp only [mul_one]
    rw [if_neg (by decide), if_neg (by decide), if_pos trivial]
    intro hp
    refine HOk.bind (rotate_90_correct p.img hp) ?_
    intro r h' hr
    cases r with
    | none => exact HOk.pure ⟨hr, rfl⟩
    | some b => exact HOk.pure ⟨hr.1, hr.2, rfl⟩
  · have et : t = ⟨w, h, rot180 w h d⟩ := by
      rw [← turned_two hlen]
      simp [t, e]
    rw [et, e]
    rw [if_neg (by decide), if_neg (by decide), if_neg (by decide), if_pos (by decide)]
    exact gives_sameSize (rotate_180_correct p.img)
  · have et : t = ⟨h, w, rot270 w h d⟩ := by
      rw [← turned_three hlen]
      simp [t, e]
    rw [et, e]
    rw [if_neg (by decide), if_neg (by decide), if_neg (by decide), if_neg (by decide)]
    intro hp
    refine HOk.bind (rotate_270_correct p.img hp) ?_
    intro r h' hr
    cases r with
    | none => exact HOk.pure ⟨hr, rfl⟩
    | some b => exact HOk.pure ⟨hr.1, hr.2, rfl⟩

/-- The dimensions are swapped exactly for odd numbers of quarter turns. -/
theorem turned_dims (i : Sized) (k : Nat) :
    (turned i k).w = (if k % 2 = 0 then i.w else i.h) ∧ (turned i k).h = (if k % 2 = 0 then i.h else i.w) := by
  induction k with
  | zero => exact ⟨rfl, rfl⟩
  | succ n ih =>
    obtain ⟨a, b⟩ := ih
    show (turned i n).h = _ ∧ (turned i n).w = _
    rw [a, b]
    rcases Nat.mod_two_eq_zero_or_one n with e | e
    · have e' : ¬ (n + 1) % 2 = 0 := by omega
      simp only [e, e', ↓reduceIte, and_self]
    · have e' : (n + 1) % 2 = 0 := by omega
      simp [e, e']

/-- C62: for every other `int` angle, and without an angle, the operation fails and changes nothing. -/
theorem rotate_op_refuses (ho : op.operation = "rotate".toList)
    (hbad : op.has_param = false ∨ ∃ a : Int, op.param = .fin (a : ℚ) ∧ IsI32 a ∧ ¬ (90 ∣ a)) :
    Refuses (apply_operation P M L w h op d) w h := by
  intro hp
  rw [apply_rotate ho]
  unfold rotateOp
  by_cases hpar : op.has_param = true
  · rw [if_pos hpar]
    rcases hbad with e | ⟨a, ea, hi, hn⟩
    · rw [e] at hpar
      cases hpar
    · rw [ea, use_ok (toI32_int hi)]
      have hang : ∀ v ∈ ([0, 90, 180, 270] : List Int), (Int.tmod a 360 + 360).tmod 360 ≠ v := by
        intro v hv e
        apply hn
        have h1 : (Int.tmod a 360 + 360).tmod 360 % 90 = a % 90 := by
          rw [Int.tmod_eq_emod_of_nonneg (a := Int.tmod a 360 + 360)]
          · rw [Int.tmod_eq_emod]
            split <;> omega
          · have := Int.lt_tmod_of_pos a (b := 360) (by omega)
            omega
        rw [e] at h1
        simp only [List.mem_cons, List.not_mem_nil, or_false] at hv
        rcases hv with e | e | e | e <;> (subst e; omega)
      rw [if_pos ⟨hang 0 (by simp), hang 90 (by simp), hang 180 (by simp), hang 270 (by simp)⟩]
      rfl
  · rw [if_neg hpar]
    rfl

/-- The operation `rotate` with the given angle. -/
def rotateBy (q : ℚ) : PipelineOp := { operation := "rotate".toList, has_param := true, param := .fin q }

/-- What an operation makes of the 2×1 image 1 2 3 4 5 6 7 8. -/
def onTwoPixels (op : PipelineOp) : Option (Option (Cells UInt8) × Int × Int) :=
  match apply_operation Plat.lp64 ⟨fun _ => 0, fun _ _ => .fin 0, fun _ => .fin 0, fun x => x⟩
    ⟨fun _ => .fin 0, fun _ => [], 9223372036854775807⟩ 2 1 op [1, 2, 3, 4, 5, 6, 7, 8] Heap.fresh with
  | .ok ((r, v), _) => some (r.map Buf.cells, v)
  | .error _ => none

theorem picture_example : Picture Plat.lp64 2 1 [1, 2, 3, 4, 5, 6, 7, 8] :=
  ⟨⟨by decide, by decide, by decide, by decide, by decide, by decide⟩, by decide, by decide⟩

/-- The hypotheses are met by the angle -450 = 90 · (-5): three quarter turns. -/
example : Gives (apply_operation Plat.lp64 M L 2 1 (rotateBy ((90 * (-5) : Int) : ℚ)) [1, 2, 3, 4, 5, 6, 7, 8]) 2 1 1 2
    [5, 6, 7, 8, 1, 2, 3, 4] := by
  have := rotate_op_turns (M := M) (L := L) picture_example (op := rotateBy ((90 * (-5) : Int) : ℚ)) rfl rfl (k := -5) (by decide) rfl
  exact this

example : onTwoPixels (rotateBy (-450)) = some (some [some 5, some 6, some 7, some 8, some 1, some 2, some 3, some 4], 1, 2) := by
  decide +kernel

example : Refuses (apply_operation Plat.lp64 M L (2 : Nat) (1 : Nat) (rotateBy ((45 : Int) : ℚ)) [1, 2, 3, 4, 5, 6, 7, 8]) 2 1 :=
  rotate_op_refuses rfl (Or.inr ⟨45, rfl, by decide, by decide⟩)

/-- Fractions are cut off: `rotate 90.5` is a quarter turn and not an error. -/
theorem rotate_fraction : onTwoPixels (rotateBy (181 / 2)) = onTwoPixels (rotateBy 90) ∧ onTwoPixels (rotateBy (181 / 2)) =
    some (some [some 1, some 2, some 3, some 4, some 5, some 6, some 7, some 8], 1, 2) :=
  ⟨by decide +kernel, by decide +kernel⟩

/-! ### C63: crop -/

theorem apply_crop (ho : op.operation = "crop".toList) : apply_operation P M L w h op d = cropOpRun P w h op d := by
  simp [apply_operation, ho]

/-- The parameters of a crop: `int` offsets and 32-bit sizes. -/
structure CropTo (op : PipelineOp) (x y : Int) (cw ch : Nat) : Prop where
  name : op.operation = "crop".toList
  given : op.has_param = true ∧ op.has_param2 = true ∧ op.has_param3 = true ∧ op.has_param4 = true
  left : op.param = .fin (x : ℚ)
  top : op.param2 = .fin (y : ℚ)
  width : op.param3 = .fin (cw : ℚ)
  height : op.param4 = .fin (ch : ℚ)
  ranges : IsI32 x ∧ IsI32 y ∧ cw < 4294967296 ∧ ch < 4294967296

theorem crop_op_eq (p : Picture P w h d) {x y : Int} {cw ch : Nat} (c : CropTo op x y cw ch) :
    apply_operation P M L w h op d =
      if w ≤ (max x 0).toNat ∨ h ≤ (max y 0).toNat then pure (none, (w : Int), (h : Int))
      else givenSize w h (clampSpan x cw w).2 (clampSpan y ch h).2
        (fcv_crop P w h 4 (some d) (clampSpan x cw w).1 (clampSpan y ch h).1 (clampSpan x cw w).2 (clampSpan y ch h).2) := by
  rw [apply_crop c.name]
  unfold cropOpRun
  obtain ⟨rx, ry, rw', rh⟩ := c.ranges
  rw [if_pos c.given, c.left, c.top, c.width, c.height, use_ok (toI32_int rx), use_ok (toI32_int ry), use_ok (toU32_nat rw'),
    use_ok (toU32_nat rh), p.uw, p.uh]
  dsimp only
  have start : ∀ {z : Int}, IsI32 z → (if z < 0 then 0 else u32OfInt z) = (max z 0).toNat := by
    intro z hz
    unfold IsI32 at hz
    split
    · omega
    · rw [u32OfInt_eq (by omega) (by omega)]
      omega
  rw [start rx, start ry]
  have w1 := p.w_int
  have h1 := p.h_int
  by_cases hb : w ≤ (max x 0).toNat ∨ h ≤ (max y 0).toNat
  · rw [if_pos hb, if_pos hb]
  · rw [if_neg hb, if_neg hb]
    rw [u32sub_eq (by omega) (by omega), u32sub_eq (by omega) (by omega)]
    have size : ∀ n len : Nat, (if n > len then len else n) = min n len := by
      intro n len
      split <;> omega
    rw [size, size]
    rfl

/-- C63: the crop operation with any `int` offsets and any positive size returns exactly the sub-rectangle that starts at the
offsets clamped to 0 and has the size clamped to the image, if the offset is inside the image. -/
theorem crop_op_gives (p : Picture P w h d) {x y : Int} {cw ch : Nat} (c : CropTo op x y cw ch) (hcw : 0 < cw) (hch : 0 < ch)
    (hx : x < w) (hy : y < h) :
    let a := clampSpan x cw w
    let b := clampSpan y ch h
    (0 < a.2 ∧ a.1 + a.2 ≤ w ∧ 0 < b.2 ∧ b.1 + b.2 ≤ h) ∧
      Gives (apply_operation P M L w h op d) w h a.2 b.2 (Spec.crop w 4 d a.1 b.1 a.2 b.2) := by
  intro a b
  have wp := p.img.w_pos
  have hpos := p.img.h_pos
  have w1 := p.w_int
  have h1 := p.h_int
  have hr : 0 < a.2 ∧ a.1 + a.2 ≤ w ∧ 0 < b.2 ∧ b.1 + b.2 ≤ h := by
    simp only [a, b, clampSpan]
    omega
  refine ⟨hr, ?_⟩
  rw [crop_op_eq p c, if_neg (by omega)]
  exact gives_givenSize (show a.2 < _ by omega) (show b.2 < _ by omega)
    (crop_correct p.img (by decide) hr.1 hr.2.2.1 hr.2.1 hr.2.2.2)

/-- C63: with an offset outside the image, or an empty size, the operation fails and changes nothing. -/
theorem crop_op_refuses (p : Picture P w h d) {x y : Int} {cw ch : Nat} (c : CropTo op x y cw ch)
    (hbad : (w : Int) ≤ x ∨ (h : Int) ≤ y ∨ cw = 0 ∨ ch = 0) : Refuses (apply_operation P M L w h op d) w h := by
  intro hp
  have wp := p.img.w_pos
  have hpos := p.img.h_pos
  have w1 := p.w_int
  have h1 := p.h_int
  rw [crop_op_eq p c]
  by_cases hb : w ≤ (max x 0).toNat ∨ h ≤ (max y 0).toNat
  · rw [if_pos hb]
    rfl
  · rw [if_neg hb]
    have hz : (clampSpan x cw w).2 = 0 ∨ (clampSpan y ch h).2 = 0 := by
      unfold clampSpan
      dsimp only
      omega
    have hl : (clampSpan x cw w).2 ≤ w ∧ (clampSpan y ch h).2 ≤ h := by
      unfold clampSpan
      dsimp only
      omega
    have := crop_rejects (P := P) (w := w) (h := h) (ch := 4) (data := some d) (x0 := (clampSpan x cw w).1)
      (y0 := (clampSpan y ch h).1) (nw := (clampSpan x cw w).2) (nh := (clampSpan y ch h).2) hp
      (by unfold IsU32; omega) (by unfold IsU32; omega) (by tauto)
    unfold Rejects at this
    unfold givenSize
    rw [hm_bind, this]
    rfl

/-- A crop operation. -/
def cropBy (x y : Int) (cw ch : Nat) : PipelineOp :=
  { operation := "crop".toList, has_param := true, param := .fin x, has_param2 := true, param2 := .fin y, has_param3 := true,
    param3 := .fin cw, has_param4 := true, param4 := .fin ch }

/-- The hypotheses are met by an offset left of and above the image and a size larger than it. -/
example : CropTo (cropBy (-3) (-1) 9 9) (-3) (-1) 9 9 :=
  ⟨rfl, ⟨rfl, rfl, rfl, rfl⟩, rfl, rfl, rfl, rfl, by decide⟩

example : onTwoPixels (cropBy (-3) (-1) 9 9) = some (some ([1, 2, 3, 4, 5, 6, 7, 8].map some), 2, 1) := by decide +kernel
example : onTwoPixels (cropBy 1 0 9 9) = some (some ([5, 6, 7, 8].map some), 1, 1) := by decide +kernel
example : onTwoPixels (cropBy 2 0 9 9) = some (none, 2, 1) := by decide +kernel

end FlatCV.Props
