/-
Properties of applying a 3x3 matrix to an image (C59, C99, C100).
-/
import Verif.Lemmas.Warp
import Verif.Lemmas.Perspective
import Verif.Spec.Geometry
import Verif.Props.Perspective

namespace FlatCV.Props
open FlatCV FlatCV.Model FlatCV.Spec

/-- A missing image or matrix or a size that is not positive gives NULL; nothing is touched. -/
theorem apply_rejects (P : Plat) {iw ih ow oh : Int} {d : Option (List UInt8)} {m : Option (Mat Dbl)} (hp : Heap)
    (h : d = none ∨ m = none ∨ iw ≤ 0 ∨ ih ≤ 0 ∨ ow ≤ 0 ∨ oh ≤ 0) :
    fcv_apply_matrix_3x3 P iw ih d ow oh m hp = .ok ((none, m), hp) := by
  cases d with
  | none => cases m <;> rfl
  | some d =>
    cases m with
    | none => rfl
    | some m =>
      have h : iw ≤ 0 ∨ ih ≤ 0 ∨ ow ≤ 0 ∨ oh ≤ 0 := by simpa using h
      unfold fcv_apply_matrix_3x3
      dsimp only
      rw [if_pos h]
      rfl

/-- What a successful call promises: NULL only if memory ran out, otherwise one new block; the matrix
object ends up as `m'`. -/
def Applied (call : HM (Option (Buf UInt8) × Option (Mat Dbl))) (m' : Mat Dbl) (Q : List UInt8 → Prop) : Prop :=
  ∀ hp, HOk call hp fun r h' => r.2 = some m' ∧ match r.1 with
    | none => OutOfMemory hp h'
    | some b => FreshResult hp h' b ∧ ∃ out, b.cells = out.map some ∧ Q out

theorem Applied.mono {call : HM (Option (Buf UInt8) × Option (Mat Dbl))} {m' : Mat Dbl} {Q Q' : List UInt8 → Prop}
    (h : Applied call m' Q) (hq : ∀ out, Q out → Q' out) : Applied call m' Q' := by
  intro hp
  refine (h hp).mono ?_
  rintro ⟨r, m⟩ h' ⟨h1, h2⟩
  refine ⟨h1, ?_⟩
  cases r with
  | none => exact h2
  | some b =>
    obtain ⟨h2, out, h3, h4⟩ := h2
    exact ⟨h2, out, h3, hq out h4⟩

/-- C59 and C99, for source and output of at most 2^29 pixels (beyond that the `int32_t` index overflows, see
`apply_large_overflow`): if the computed source coordinates fit `int32_t`, the call reads only inside the source,
writes only inside the output, and yields the warped image: transparent black where there is no source, bilinear
interpolation cut to integers elsewhere. -/
theorem apply_warps_partial (P : Plat) {iw ih ow oh : ℕ} (hiw : 0 < iw) (hih : 0 < ih) (how : 0 < ow) (hoh : 0 < oh)
    (hi : iw * ih ≤ 536870912) (ho : ow * oh ≤ 536870912) {d : List UInt8} (hd : d.length = iw * ih * 4) {m : Mat Dbl}
    (hf : CoordsFit (patchFlip iw ih m) ow oh) :
    Applied (fcv_apply_matrix_3x3 P iw ih (some d) ow oh (some m)) (patchFlip iw ih m)
      (Warped (patchFlip iw ih m) iw ih d ow oh) := by
  intro hp
  have hmod := P.mod_ge
  have hmax : 4294967295 ≤ P.szMax := by unfold Plat.szMax; omega
  unfold fcv_apply_matrix_3x3
  dsimp only
  have t1 : ((ow : ℕ) : ℤ).toNat = ow := Int.toNat_natCast ow
  have t2 : ((oh : ℕ) : ℤ).toNat = oh := Int.toNat_natCast oh
  rw [if_neg (by omega), t1, t2, if_neg (P.guard_of_mul_le hoh (by omega)), P.sz_eq (by omega),
    if_neg (P.guard_of_mul_le (by omega) (by omega)), P.sz_eq (by omega)]
  refine HOk.bind (P := fun r h' =>
    (r = none ∧ hp.fails hp.next = true ∧ h' = { hp with next := hp.next + 1 }) ∨
    (r = some ⟨hp.next, List.replicate (ow * oh * 4) (some 0)⟩ ∧
      h' = { hp with next := hp.next + 1, live := hp.next :: hp.live })) ?_ ?_
  · exact HOk.calloc (fun h => Or.inl ⟨rfl, h, rfl⟩) (fun _ => Or.inr ⟨rfl, rfl⟩)
  · rintro r h' (⟨rfl, hfail, rfl⟩ | ⟨rfl, rfl⟩)
    · exact HOk.pure ⟨rfl, rfl, rfl, by simp, hp.next, le_refl _, by simp, hfail⟩
    · dsimp only
      obtain ⟨s, hs, out, e, hw⟩ := warp_ok hd hi ho hf
      refine HOk.bind (P := fun c h' => c = s ∧ h' = { hp with next := hp.next + 1, live := hp.next :: hp.live })
        (HOk.use (by simp) (Ok.of_eq hs ⟨rfl, rfl⟩)) ?_
      rintro c h' ⟨rfl, rfl⟩
      exact HOk.pure ⟨rfl, ⟨rfl, rfl, le_refl _, by simp⟩, out, e, hw⟩

/-! ### Integer matrices -/

theorem add_int64 {a b : ℤ} (h : |a + b| ≤ 9007199254740992) :
    Dbl.add Fmt.b64 (.fin a) (.fin b) = .fin ((a + b : ℤ) : ℚ) := by
  have hq : |((a + b : ℤ) : ℚ)| ≤ 2 ^ 53 := by
    have : ((|a + b| : ℤ) : ℚ) ≤ ((9007199254740992 : ℤ) : ℚ) := by exact_mod_cast h
    rw [Int.cast_abs] at this
    refine this.trans (by norm_num)
  unfold Dbl.add
  dsimp only
  rw [show (a : ℚ) + (b : ℚ) = ((a + b : ℤ) : ℚ) by push_cast; rfl, lift64 (by norm_num) hq, rnd64_int h]

theorem mul_int64 {a b : ℤ} (h : |a * b| ≤ 9007199254740992) :
    Dbl.mul Fmt.b64 (.fin a) (.fin b) = .fin ((a * b : ℤ) : ℚ) := by
  have hq : |((a * b : ℤ) : ℚ)| ≤ 2 ^ 53 := by
    have : ((|a * b| : ℤ) : ℚ) ≤ ((9007199254740992 : ℤ) : ℚ) := by exact_mod_cast h
    rw [Int.cast_abs] at this
    refine this.trans (by norm_num)
  unfold Dbl.mul
  dsimp only
  rw [show (a : ℚ) * (b : ℚ) = ((a * b : ℤ) : ℚ) by push_cast; rfl, lift64 (by norm_num) hq, rnd64_int h]

theorem linear_int {p q r : ℤ} {x y : ℕ} (h1 : |p * x| ≤ 9007199254740992) (h2 : |q * y| ≤ 9007199254740992)
    (h3 : |p * x + q * y| ≤ 9007199254740992) (h4 : |p * x + q * y + r| ≤ 9007199254740992) :
    linear64 (.fin p) (.fin q) (.fin r) x y = .fin ((p * x + q * y + r : ℤ) : ℚ) := by
  unfold linear64
  have e : ∀ n : ℕ, (Dbl.fin (n : ℚ)) = .fin (((n : ℤ) : ℤ) : ℚ) := fun n => by push_cast; rfl
  rw [e x, e y, mul_int64 h1, mul_int64 h2, add_int64 h3, add_int64 h4]

/-- The affine matrix with integer coefficients `x' = p x + q y + r`, `y' = s x + t y + u`. -/
def intMat (p q r s t u : ℤ) : Mat Dbl := ⟨.fin p, .fin q, .fin r, .fin s, .fin t, .fin u, .fin 0, .fin 0, .fin 1⟩

/-- The image whose pixel `(x, y)` is the source pixel at `(p x + q y + r, s x + t y + u)`, transparent black
outside the source. -/
def intWarp (p q r s t u : ℤ) (iw ih : ℕ) (d : List UInt8) (ow oh : ℕ) : List UInt8 :=
  mkImg ow oh 4 fun x y c =>
    let X := p * x + q * y + r
    let Y := s * x + t * y + u
    if 0 ≤ X ∧ X < iw ∧ 0 ≤ Y ∧ Y < ih then px iw 4 d X.toNat Y.toNat c else 0

theorem int_position {p q r s t u : ℤ} {x y : ℕ} (hx : x < 536870912) (hy : y < 536870912)
    (hb : |p| ≤ 1048576 ∧ |q| ≤ 1048576 ∧ |r| ≤ 2147483648 ∧ |s| ≤ 1048576 ∧ |t| ≤ 1048576 ∧ |u| ≤ 2147483648) :
    Position (intMat p q r s t u) x y ((p * x + q * y + r : ℤ) : ℚ) ((s * x + t * y + u : ℤ) : ℚ) := by
  obtain ⟨b1, b2, b3, b4, b5, b6⟩ := hb
  have prod : ∀ (a : ℤ) (n : ℕ), |a| ≤ 1048576 → n < 536870912 → |a * n| ≤ 562949953421312 := by
    intro a n ha hn
    rw [abs_mul]
    calc |a| * |(n : ℤ)| ≤ 1048576 * 536870912 :=
        mul_le_mul ha (by rw [abs_of_nonneg (by omega)]; omega) (abs_nonneg _) (by norm_num)
      _ = _ := by norm_num
  have lin : ∀ a b c : ℤ, |a| ≤ 1048576 → |b| ≤ 1048576 → |c| ≤ 2147483648 →
      linear64 (.fin a) (.fin b) (.fin c) x y = .fin ((a * x + b * y + c : ℤ) : ℚ) ∧
        |a * x + b * y + c| ≤ 9007199254740992 := by
    intro a b c ha hb hc
    have h1 := abs_le.1 (prod a x ha hx)
    have h2 := abs_le.1 (prod b y hb hy)
    have h3 := abs_le.1 hc
    refine ⟨linear_int ?_ ?_ ?_ ?_, ?_⟩ <;> rw [abs_le] <;> constructor <;> linarith [h1.1, h1.2, h2.1, h2.2, h3.1, h3.2]
  have hw : linear64 (.fin 0) (.fin 0) (.fin 1) x y = .fin 1 := by
    have := (lin 0 0 1 (by norm_num) (by norm_num) (by norm_num)).1
    simpa using this
  have dv : ∀ z : ℤ, |z| ≤ 9007199254740992 → Dbl.div Fmt.b64 (.fin z) (.fin 1) = .ok (.fin z) := by
    intro z hz
    have hq : |(z : ℚ)| ≤ 2 ^ 53 := by
      have : ((|z| : ℤ) : ℚ) ≤ ((9007199254740992 : ℤ) : ℚ) := by exact_mod_cast hz
      rw [Int.cast_abs] at this
      refine this.trans (by norm_num)
    unfold Dbl.div
    dsimp only
    rw [if_neg one_ne_zero, div_one, lift64 (by norm_num) hq, rnd64_int hz]
  refine ⟨?_, ?_, ?_⟩
  · rintro ⟨q, h1, h2⟩
    rw [show linear64 (intMat p _ r s t u).m20 (intMat p _ r s t u).m21 (intMat p _ r s t u).m22 x y = _ from hw] at h1
    cases h1
    unfold tiny10 at h2
    norm_num at h2
  · have := lin p q r b1 b2 b3
    change Dbl.div Fmt.b64 (linear64 (.fin p) (.fin q) (.fin r) x y) (linear64 (.fin 0) (.fin 0) (.fin 1) x y) = _
    rw [hw, this.1]
    exact dv _ this.2
  · have := lin s t u b4 b5 b6
    change Dbl.div Fmt.b64 (linear64 (.fin s) (.fin t) (.fin u) x y) (linear64 (.fin 0) (.fin 0) (.fin 1) x y) = _
    rw [hw, this.1]
    exact dv _ this.2

theorem position_unique {m : Mat Dbl} {x y : ℕ} {a b a' b' : ℚ} (h : Position m x y a b) (h' : Position m x y a' b') :
    a = a' ∧ b = b' := by
  have h1 := h.evalX.symm.trans h'.evalX
  have h2 := h.evalY.symm.trans h'.evalY
  cases h1
  cases h2
  exact ⟨rfl, rfl⟩

/-- The coordinates that an integer matrix produces on an `ow x oh` output can be converted to `int32_t`. -/
def IntFits (p q r s t u : ℤ) (ow oh : ℕ) : Prop :=
  ∀ x y : ℕ, x < ow → y < oh →
    (-2147483648 ≤ p * x + q * y + r ∧ p * x + q * y + r ≤ 2147483646) ∧
    (-2147483648 ≤ s * x + t * y + u ∧ s * x + t * y + u ≤ 2147483646)

theorem warped_int {p q r s t u : ℤ} {iw ih ow oh : ℕ} (how : 0 < ow) (hoh : 0 < oh) (ho : ow * oh ≤ 536870912)
    (hb : |p| ≤ 1048576 ∧ |q| ≤ 1048576 ∧ |r| ≤ 2147483648 ∧ |s| ≤ 1048576 ∧ |t| ≤ 1048576 ∧ |u| ≤ 2147483648)
    {d out : List UInt8} (h : Warped (intMat p q r s t u) iw ih d ow oh out) :
    out = intWarp p q r s t u iw ih d ow oh := by
  have w1 : ow ≤ ow * oh := Nat.le_mul_of_pos_right _ hoh
  have w2 : oh ≤ ow * oh := Nat.le_mul_of_pos_left _ how
  unfold intWarp
  refine img_ext h.1 (mkImg_length _ _ _ _) fun x y c hx hy hc => ?_
  rw [px_mkImg hx hy hc]
  have hp := int_position (p := p) (q := q) (r := r) (s := s) (t := t) (u := u) (x := x) (y := y) (by omega) (by omega) hb
  dsimp only
  obtain ⟨X, hX⟩ : ∃ X, X = p * x + q * y + r := ⟨_, rfl⟩
  obtain ⟨Y, hY⟩ : ∃ Y, Y = s * x + t * y + u := ⟨_, rfl⟩
  rw [← hX, ← hY] at hp ⊢
  rcases h.2 x hx y hy with ⟨h1, -⟩ | ⟨sx, sy, h1, h2⟩
  · exact absurd h1 hp.some
  · obtain ⟨e1, e2⟩ := position_unique h1 hp
    by_cases hin : 0 ≤ X ∧ X < iw ∧ 0 ≤ Y ∧ Y < ih
    · rw [if_pos hin]
      obtain ⟨i, rfl⟩ := Int.eq_ofNat_of_zero_le hin.1
      obtain ⟨j, rfl⟩ := Int.eq_ofNat_of_zero_le hin.2.2.1
      exact h2.exact i j (by omega) (by omega) (by rw [e1]; push_cast; rfl) (by rw [e2]; push_cast; rfl) c hc
    · rw [if_neg hin]
      refine h2.outside ?_ c hc
      rintro ⟨g1, g2, g3, g4⟩
      rw [e1] at g1 g2
      rw [e2] at g3 g4
      exact hin ⟨by exact_mod_cast g1, by exact_mod_cast g2, by exact_mod_cast g3, by exact_mod_cast g4⟩

theorem coordsFit_int {p q r s t u : ℤ} {ow oh : ℕ} (ho : ow * oh ≤ 536870912)
    (hb : |p| ≤ 1048576 ∧ |q| ≤ 1048576 ∧ |r| ≤ 2147483648 ∧ |s| ≤ 1048576 ∧ |t| ≤ 1048576 ∧ |u| ≤ 2147483648)
    (hf : IntFits p q r s t u ow oh) : CoordsFit (intMat p q r s t u) ow oh := by
  intro x hx y hy
  have w1 : ow ≤ ow * oh := Nat.le_mul_of_pos_right _ (by omega)
  have w2 : oh ≤ ow * oh := Nat.le_mul_of_pos_left _ (by omega)
  refine Or.inr ⟨_, _, int_position (by omega) (by omega) hb, ?_, ?_⟩
  · unfold Fits32; rw [Int.floor_intCast]; exact (hf x y hx hy).1
  · unfold Fits32; rw [Int.floor_intCast]; exact (hf x y hx hy).2

theorem near_minus_one {p : ℤ} (hp : |p| ≤ 1048576) :
    Dbl.lt (absDbl (Dbl.add Fmt.b64 (.fin p) (.fin 1))) (.fin tiny9) = decide (p = -1) := by
  have hp' := abs_le.1 hp
  have e : Dbl.add Fmt.b64 (.fin (p : ℚ)) (.fin 1) = .fin ((p + 1 : ℤ) : ℚ) := by
    have := add_int64 (a := p) (b := 1) (by rw [abs_le]; constructor <;> linarith [hp'.1, hp'.2])
    simpa using this
  rw [e]
  unfold absDbl Dbl.lt
  dsimp only
  congr 1
  apply propext
  constructor
  · intro h
    by_contra hne
    have h1 : (1 : ℤ) ≤ |p + 1| := Int.one_le_abs (by omega)
    have h2 : (1 : ℚ) ≤ |((p + 1 : ℤ) : ℚ)| := by rw [← Int.cast_abs]; exact_mod_cast h1
    unfold tiny9 at h
    norm_num at h h2
    linarith
  · rintro rfl
    unfold tiny9
    norm_num

/-- The patch for flips on integer matrices. -/
theorem patch_int {p q r s t u : ℤ} (hp : |p| ≤ 1048576) (ht : |t| ≤ 1048576) (iw ih : ℤ) :
    patchFlip iw ih (intMat p q r s t u) =
      if p = -1 ∧ t = -1 ∧ r = 0 ∧ u = 0 then intMat p q (iw - 1) s t (ih - 1) else intMat p q r s t u := by
  unfold patchFlip
  have e1 : decide ((intMat p q r s t u).m02 = Dbl.fin 0) = decide (r = 0) := by
    congr 1
    apply propext
    change Dbl.fin (r : ℚ) = Dbl.fin 0 ↔ _
    rw [Dbl.fin.injEq]
    exact_mod_cast Iff.rfl
  have e2 : decide ((intMat p q r s t u).m12 = Dbl.fin 0) = decide (u = 0) := by
    congr 1
    apply propext
    change Dbl.fin (u : ℚ) = Dbl.fin 0 ↔ _
    rw [Dbl.fin.injEq]
    exact_mod_cast Iff.rfl
  rw [show (intMat p q r s t u).m00 = Dbl.fin p from rfl, show (intMat p q r s t u).m11 = Dbl.fin t from rfl,
    near_minus_one hp, near_minus_one ht, e1, e2]
  by_cases h : p = -1 ∧ t = -1 ∧ r = 0 ∧ u = 0
  · rw [if_pos h, if_pos (by simp [h.1, h.2.1, h.2.2.1, h.2.2.2])]
    rfl
  · rw [if_neg h, if_neg]
    intro hc
    apply h
    simp only [Bool.and_eq_true, decide_eq_true_eq] at hc
    exact ⟨hc.1.1.1, hc.1.1.2, hc.1.2, hc.2⟩

/-- C99 (integer matrices, exactly): for an affine matrix with integer coefficients, which is not the special
flip matrix, the output pixel `(x, y)` is exactly the source pixel at the transformed point and transparent black
if that point is outside; the matrix object is unchanged.  Holds for sizes up to 2^29 pixels. -/
theorem apply_integer_matrix_partial (P : Plat) {iw ih ow oh : ℕ} (hiw : 0 < iw) (hih : 0 < ih) (how : 0 < ow) (hoh : 0 < oh)
    (hi : iw * ih ≤ 536870912) (ho : ow * oh ≤ 536870912) {d : List UInt8} (hd : d.length = iw * ih * 4)
    {p q r s t u : ℤ}
    (hb : |p| ≤ 1048576 ∧ |q| ≤ 1048576 ∧ |r| ≤ 2147483648 ∧ |s| ≤ 1048576 ∧ |t| ≤ 1048576 ∧ |u| ≤ 2147483648)
    (hf : IntFits p q r s t u ow oh) (hn : ¬ (p = -1 ∧ t = -1 ∧ r = 0 ∧ u = 0)) :
    Applied (fcv_apply_matrix_3x3 P iw ih (some d) ow oh (some (intMat p q r s t u))) (intMat p q r s t u)
      (fun out => out = intWarp p q r s t u iw ih d ow oh) := by
  have e := patch_int (q := q) (r := r) (s := s) (u := u) hb.1 hb.2.2.2.2.1 iw ih
  rw [if_neg hn] at e
  have := apply_warps_partial P hiw hih how hoh hi ho hd (m := intMat p q r s t u)
    (by rw [e]; exact coordsFit_int ho hb hf)
  rw [e] at this
  exact this.mono fun out h => warped_int how hoh ho hb h

/-- C59 (last part): the identity matrix copies the image. -/
theorem apply_identity_copies_partial (P : Plat) {w h : ℕ} (hw : 0 < w) (hh : 0 < h) (hs : w * h ≤ 536870912)
    {d : List UInt8} (hd : d.length = w * h * 4) :
    Applied (fcv_apply_matrix_3x3 P w h (some d) w h (some (Mat.identity Arith.dbl))) (Mat.identity Arith.dbl)
      (fun out => out = d) := by
  have w1 : w ≤ w * h := Nat.le_mul_of_pos_right _ hh
  have w2 : h ≤ w * h := Nat.le_mul_of_pos_left _ hw
  have e : Mat.identity Arith.dbl = intMat 1 0 0 0 1 0 := by
    unfold Mat.identity intMat Arith.dbl
    simp
  rw [e]
  refine (apply_integer_matrix_partial P hw hh hw hh hs hs hd (by norm_num) ?_ (by omega)).mono ?_
  · intro x y hx hy
    constructor <;> constructor <;> omega
  · rintro out rfl
    unfold intWarp
    refine img_ext (mkImg_length _ _ _ _) hd fun x y c hx hy hc => ?_
    rw [px_mkImg hx hy hc]
    dsimp only
    have e1 : (1 : ℤ) * x + 0 * y + 0 = x := by ring
    have e2 : (0 : ℤ) * x + 1 * y + 0 = y := by ring
    rw [e1, e2, if_pos (by omega)]
    rfl

/-- C100 (first part): the matrix diag(-1, -1, 1) turns the image by 180 degrees; but the call changes the
matrix object, storing the size of this image in it. -/
theorem apply_flip_rotates_partial (P : Plat) {w h : ℕ} (hw : 0 < w) (hh : 0 < h) (hs : w * h ≤ 536870912)
    {d : List UInt8} (hd : d.length = w * h * 4) :
    Applied (fcv_apply_matrix_3x3 P w h (some d) w h (some (intMat (-1) 0 0 0 (-1) 0)))
      (intMat (-1) 0 (w - 1) 0 (-1) (h - 1)) (fun out => out = rot180 w h d) := by
  have w1 : w ≤ w * h := Nat.le_mul_of_pos_right _ hh
  have w2 : h ≤ w * h := Nat.le_mul_of_pos_left _ hw
  have e := patch_int (p := -1) (t := -1) (q := 0) (r := 0) (s := 0) (u := 0) (by norm_num) (by norm_num) w h
  rw [if_pos ⟨rfl, rfl, rfl, rfl⟩] at e
  have hb : |(-1 : ℤ)| ≤ 1048576 ∧ |(0 : ℤ)| ≤ 1048576 ∧ |(w : ℤ) - 1| ≤ 2147483648 ∧ |(0 : ℤ)| ≤ 1048576 ∧
      |(-1 : ℤ)| ≤ 1048576 ∧ |(h : ℤ) - 1| ≤ 2147483648 := by
    refine ⟨by norm_num, by norm_num, ?_, by norm_num, by norm_num, ?_⟩ <;> rw [abs_le] <;> constructor <;> omega
  have := apply_warps_partial P hw hh hw hh hs hs hd (m := intMat (-1) 0 0 0 (-1) 0)
    (by
      rw [e]
      refine coordsFit_int hs hb ?_
      intro x y hx hy
      constructor <;> constructor <;> omega)
  rw [e] at this
  refine this.mono ?_
  intro out ho
  rw [warped_int hw hh hs hb ho]
  unfold intWarp rot180
  refine mkImg_congr fun x y c hx hy hc => ?_
  dsimp only
  rw [if_pos (by omega)]
  congr 1 <;> omega

/-- Run the function on concrete inputs: the bytes of the result and the coefficients of the matrix object
afterwards. -/
def warpRun (iw ih : Int) (d : List UInt8) (ow oh : Int) (m : Mat Dbl) : Option (Option (List (Option UInt8)) × Dbl × Dbl) :=
  okVal ((fcv_apply_matrix_3x3 Plat.lp64 iw ih (some d) ow oh (some m) Heap.fresh).map fun r =>
    (r.1.1.map (·.cells), match r.1.2 with
      | some m => (m.m02, m.m12)
      | none => (.nan, .nan)))

/-- Two pixels, turned by 180 degrees: they change places and the matrix object is modified. -/
example : warpRun 2 1 [1, 2, 3, 4, 5, 6, 7, 8] 2 1 (intMat (-1) 0 0 0 (-1) 0) =
    some (some [some 5, some 6, some 7, some 8, some 1, some 2, some 3, some 4], .fin 1, .fin 0) := by decide +kernel

/-- Halfway between two pixels. -/
example : warpRun 2 1 [10, 20, 30, 255, 20, 20, 33, 255] 1 1
    ⟨.fin 1, .fin 0, .fin (1 / 2), .fin 0, .fin 1, .fin 0, .fin 0, .fin 0, .fin 1⟩ =
    some (some [some 15, some 20, some 31, some 255], .fin (1 / 2), .fin 0) := by decide +kernel

/-- C100 is false: a matrix object that has been applied to a one-pixel-wide image gives a different result for
the next image than a fresh matrix object with the same initial coefficients. -/
theorem apply_flip_matrix_not_reusable :
    warpRun 2 1 [1, 2, 3, 4, 5, 6, 7, 8] 2 1 (intMat (-1) 0 0 0 (-1) 0) =
      some (some [some 5, some 6, some 7, some 8, some 1, some 2, some 3, some 4], .fin 1, .fin 0) ∧
    warpRun 3 1 [1, 1, 1, 1, 2, 2, 2, 2, 3, 3, 3, 3] 3 1 (intMat (-1) 0 0 0 (-1) 0) =
      some (some [some 3, some 3, some 3, some 3, some 2, some 2, some 2, some 2, some 1, some 1, some 1, some 1],
        .fin 2, .fin 0) ∧
    warpRun 3 1 [1, 1, 1, 1, 2, 2, 2, 2, 3, 3, 3, 3] 3 1 (intMat (-1) 0 1 0 (-1) 0) =
      some (some [some 2, some 2, some 2, some 2, some 1, some 1, some 1, some 1, some 0, some 0, some 0, some 0],
        .fin 1, .fin 0) := by
  decide +kernel

/-- A matrix of NaNs makes the conversion to `int32_t` undefined: the condition on the coordinates in C59 cannot
be dropped. -/
theorem apply_nan_undefined :
    warpRun 1 1 [1, 2, 3, 4] 1 1 ⟨.nan, .nan, .nan, .nan, .nan, .nan, .nan, .nan, .nan⟩ = none := by decide +kernel

/-- C59 is false for sources of more than 2^29 pixels: an image one pixel wide and 2^29 + 1 pixels high, of
which the pixel in the last row is looked at, overflows the `int32_t` index. -/
theorem apply_large_overflow (P : Plat) {d : List UInt8} :
    faultOf (fcv_apply_matrix_3x3 P 1 536870913 (some d) 1 1 (some (intMat 1 0 0 0 1 536870912)) Heap.fresh) =
      some (.comp .signedOverflow) := by
  have e := patch_int (p := 1) (t := 1) (q := 0) (r := 0) (s := 0) (u := 536870912) (by norm_num) (by norm_num) 1 536870913
  rw [if_neg (by omega)] at e
  have hmod := P.mod_ge
  have hmax : 4294967295 ≤ P.szMax := by unfold Plat.szMax; omega
  have hp := int_position (p := 1) (q := 0) (r := 0) (s := 0) (t := 1) (u := 536870912) (x := 0) (y := 0) (by norm_num)
    (by norm_num) (by norm_num)
  have key : ∀ s, warpPixel 1 536870913 d 1 (intMat 1 0 0 0 1 536870912) 0 0 s = .error .signedOverflow := by
    intro s
    have hnt : ¬ Dbl.lt (absDbl (affine (intMat 1 0 0 0 1 536870912).m20 (intMat 1 0 0 0 1 536870912).m21
        (intMat 1 0 0 0 1 536870912).m22 0 0)) (.fin tiny10) = true := fun h => hp.some (tiny_test.1 h)
    have fx : Fits32 ((1 * ((0 : ℕ) : ℤ) + 0 * ((0 : ℕ) : ℤ) + 0 : ℤ) : ℚ) := by
      unfold Fits32; rw [Int.floor_intCast]; norm_num
    have fy : Fits32 ((0 * ((0 : ℕ) : ℤ) + 1 * ((0 : ℕ) : ℤ) + 536870912 : ℤ) : ℚ) := by
      unfold Fits32; rw [Int.floor_intCast]; norm_num
    unfold warpPixel
    dsimp only
    rw [if_neg hnt, linear64_eq, linear64_eq, linear64_eq, hp.evalX, ok_bind, hp.evalY]
    simp only [finiteVal, ok_bind]
    rw [castI32_floor fx, ok_bind, castI32_floor fy, ok_bind, Int.floor_intCast, Int.floor_intCast]
    have z1 : (1 * ((0 : ℕ) : ℤ) + 0 * ((0 : ℕ) : ℤ) + 0 : ℤ) = 0 := by norm_num
    have z2 : (0 * ((0 : ℕ) : ℤ) + 1 * ((0 : ℕ) : ℤ) + 536870912 : ℤ) = 536870912 := by norm_num
    rw [z1, z2, i32_ok ⟨by norm_num, by norm_num⟩, ok_bind, i32_ok ⟨by norm_num, by norm_num⟩, ok_bind, if_pos (by norm_num)]
    have f1 : f64 (((0 : ℤ) : ℚ) - ((0 : ℤ) : ℚ)) = .ok 0 := by decide +kernel
    have f2 : f64 (((536870912 : ℤ) : ℚ) - ((536870912 : ℤ) : ℚ)) = .ok 0 := by decide +kernel
    rw [f1, ok_bind, f2, ok_bind]
    have g : pixIdx 1 0 536870912 = .error .signedOverflow := by decide +kernel
    rw [g, error_bind]
  unfold fcv_apply_matrix_3x3
  dsimp only
  have t1 : (1 : ℤ).toNat = 1 := rfl
  rw [if_neg (by norm_num), t1, if_neg (P.guard_of_mul_le (by norm_num) (by omega)), P.sz_eq (by omega),
    if_neg (P.guard_of_mul_le (by omega) (by omega)), P.sz_eq (by omega), e]
  have hc : calloc (1 * 1 * 4) (0 : UInt8) Heap.fresh =
      .ok (some ⟨0, List.replicate 4 (some 0)⟩, { Heap.fresh with next := 1, live := [0] }) := rfl
  rw [hm_step hc]
  dsimp only
  have hl : ∀ s : Cells UInt8, (forN 1 s fun out_y s => forN 1 s fun out_x s =>
      warpPixel 1 536870913 d 1 (intMat 1 0 0 0 1 536870912) out_y out_x s) = .error .signedOverflow := by
    intro s
    rw [forN_succ, forN_zero, ok_bind, forN_succ, forN_zero, ok_bind]
    exact key s
  rw [hl]
  rfl

end FlatCV.Props
