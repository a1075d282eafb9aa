/-
C111 and C116: document extraction.
-/
import Verif.Lemmas.Extract
import Verif.Props.Warp
import Verif.Props.Detect
import Verif.Props.Perspective
import Verif.Props.TidyDetect

namespace FlatCV.Props

open Model Spec

/-! ### C111: the size of the document -/

theorem within30 {w : Nat} {p : ℚ} (hw : w < 1073741824) (h0 : 0 < p) (h1 : p < w) : Within30 p := by
  refine ⟨h0, h1.trans ?_⟩
  have : (w : ℚ) < (1073741824 : ℕ) := by exact_mod_cast hw
  refine this.trans_le (by norm_num)

/-- C111: for corners inside an image the function computes the length of each side of the document as the longer one of two
opposite sides, rounded to pixels, but at least 100. -/
theorem document_size {M : MathLib} (hM : PowOk M.pow2) {w h : Nat} (hw : w < 1073741824) (hh : h < 1073741824) {k : Corners Dbl}
    (hk : CornersInside w h k) : ∃ W H, documentSize M k = .ok (W, H) ∧ DocumentSize k W H := by
  obtain ⟨⟨a, b, ea, eb, a0, a1, b0, b1⟩, ⟨c, d, ec, ed, c0, c1, d0, d1⟩, ⟨e, f, ee, ef, e0, e1, f0, f1⟩,
    ⟨g, i, eg, ei, g0, g1, i0, i1⟩⟩ := hk
  obtain ⟨W, H, e1', e2', -, -⟩ := documentSize_ok hM (k := k) (a := a) (b := b) (c := c) (d := d) (e := e) (f := f) (g := g) (h := i)
    (by cases k; simp only at *; subst_vars; rfl) (within30 hw a0 a1) (within30 hh b0 b1) (within30 hw c0 c1) (within30 hh d0 d1)
    (within30 hw e0 e1) (within30 hh f0 f1) (within30 hw g0 g1) (within30 hh i0 i1)
  exact ⟨W, H, e1', e2'⟩

/-- The size is determined up to one pixel by the corners. -/
theorem rounded_length_unique {s : ℚ} {m n : Nat} (hm : RoundedLength s m) (hn : RoundedLength s n) : m ≤ n + 1 := by
  by_contra hc
  have hm1 := hm.down (by have := hn.least; omega)
  have h2 : (n : ℚ) + 2 ≤ m := by exact_mod_cast (by omega : n + 2 ≤ m)
  have n0 : (0 : ℚ) ≤ n := by positivity
  have := hm1.trans hn.up
  have h3 : ((n : ℚ) + 1 / 2 + 1 / 1000) ^ 2 < ((m : ℚ) - 1 / 2 - 1 / 1000) ^ 2 := pow_lt_pow_left₀ (by linarith) (by linarith) (by norm_num)
  linarith

/-- A correctly rounded `pow(x, 2)` is one that the theorem admits. -/
def roundedSquare : Dbl → Dbl
  | .fin x => .fin (Fmt.b64.rnd (x ^ 2))
  | _ => .nan

theorem powOk_roundedSquare : PowOk roundedSquare := by
  intro x _
  refine ⟨Fmt.b64.rnd (x ^ 2), rfl, rnd_nonneg _ (sq_nonneg x), (rnd64_err _).trans ?_⟩
  rw [abs_of_nonneg (sq_nonneg x)]
  have : x ^ 2 / 2 ^ 53 ≤ x ^ 2 / 2 ^ 50 := div_le_div_of_nonneg_left (sq_nonneg x) (by positivity) (by norm_num)
  exact add_le_add this tiny1075

/-- A photographed page with a top edge of 300 pixels, a bottom edge of 400, and two equal sides of 522: 400 by 522 pixels. -/
example : documentSize ⟨fun _ => 0, fun _ _ => .nan, fun _ => .nan, roundedSquare⟩
    ⟨.fin 60, .fin 10, .fin 360, .fin 10, .fin 410, .fin 530, .fin 10, .fin 530⟩ = .ok (400, 522) := by decide +kernel

example : CornersInside 500 600 ⟨.fin 60, .fin 10, .fin 360, .fin 10, .fin 410, .fin 530, .fin 10, .fin 530⟩ := by
  refine ⟨⟨60, 10, rfl, rfl, ?_⟩, ⟨360, 10, rfl, rfl, ?_⟩, ⟨410, 530, rfl, rfl, ?_⟩, ⟨10, 530, rfl, rfl, ?_⟩⟩ <;> norm_num

/-- A tiny document is enlarged to 100 by 100 pixels. -/
example : documentSize ⟨fun _ => 0, fun _ _ => .nan, fun _ => .nan, roundedSquare⟩
    ⟨.fin 1, .fin 1, .fin 5, .fin 1, .fin 5, .fin 5, .fin 1, .fin 5⟩ = .ok (100, 100) := by decide +kernel

/-! ### C59: the coordinates must fit -/

/-- C59, C99: if applying a matrix returns an image, all computed source coordinates fit `int32_t`.  So the condition of
`apply_warps_partial` is necessary as well as sufficient. -/
theorem apply_needs_fit (P : Plat) {iw ih : Int} {ow oh : ℕ} {d : List UInt8} {m : Mat Dbl} {hp h' : Heap} {b : Buf UInt8}
    {m' : Option (Mat Dbl)} (e : fcv_apply_matrix_3x3 P iw ih (some d) ow oh (some m) hp = .ok ((some b, m'), h')) :
    CoordsFit (patchFlip iw ih m) ow oh := by
  have t1 : ((ow : ℕ) : ℤ).toNat = ow := Int.toNat_natCast ow
  have t2 : ((oh : ℕ) : ℤ).toNat = oh := Int.toNat_natCast oh
  have key : HPart (fcv_apply_matrix_3x3 P iw ih (some d) ow oh (some m)) hp fun r _ =>
      r.1 ≠ none → CoordsFit (patchFlip iw ih m) ow oh := by
    unfold fcv_apply_matrix_3x3
    dsimp only
    rw [t1, t2]
    split
    · exact HPart.pure fun h => absurd rfl h
    split
    · exact HPart.pure fun h => absurd rfl h
    split
    · exact HPart.pure fun h => absurd rfl h
    refine HPart.seq fun b h' => ?_
    cases b with
    | none => exact HPart.pure fun h => absurd rfl h
    | some b =>
      dsimp only
      refine HPart.bind (P := fun _ _ => CoordsFit (patchFlip iw ih m) ow oh) ?_ fun c h'' hc => HPart.pure fun _ => hc
      intro r h1 e1
      unfold use at e1
      split at e1
      · split at e1
        · rename_i r' he
          exact coordsFit_of_ok he
        · cases e1
      · cases e1
  exact key _ _ e (by simp)

/-- A matrix whose coordinates do not fit: every pixel comes from the abscissa 3000000000. -/
example : ¬ CoordsFit (intMat 0 0 3000000000 0 1 0) 2 2 := by
  intro h
  have e1 : linear64 (.fin 0) (.fin 0) (.fin 1) 0 0 = .fin 1 := by decide +kernel
  rcases h 0 (by norm_num) 0 (by norm_num) with ⟨q, hq, hlt⟩ | ⟨sx, sy, hpos, hx, -⟩
  · change linear64 (.fin 0) (.fin 0) (.fin 1) 0 0 = _ at hq
    rw [e1] at hq
    cases hq
    exact absurd hlt (by unfold tiny10; norm_num)
  · have e2 : Dbl.div Fmt.b64 (linear64 (intMat 0 0 3000000000 0 1 0).m00 (intMat 0 0 3000000000 0 1 0).m01 (intMat 0 0 3000000000 0 1 0).m02 0 0)
        (linear64 (intMat 0 0 3000000000 0 1 0).m20 (intMat 0 0 3000000000 0 1 0).m21 (intMat 0 0 3000000000 0 1 0).m22 0 0) =
        .ok (.fin 3000000000) := by decide +kernel
    have := hpos.evalX
    rw [e2] at this
    cases this
    obtain ⟨-, h2⟩ := hx
    have : ⌊(3000000000 : ℚ)⌋ = 3000000000 := by norm_num
    omega

theorem apply_some (P : Plat) {hp h' : Heap} (hf : ∀ i, hp.fails i = false) {iw ih ow oh : ℕ} (hiw : 0 < iw) (hih : 0 < ih) (how : 0 < ow)
    (hoh : 0 < oh) (ho : ow * oh ≤ 536870912) {d : List UInt8} {m : Mat Dbl} {m' : Option (Mat Dbl)} :
    fcv_apply_matrix_3x3 P iw ih (some d) ow oh (some m) hp ≠ .ok ((none, m'), h') := by
  have hmod := P.mod_ge
  have hmax : 4294967295 ≤ P.szMax := by unfold Plat.szMax; omega
  have t1 : ((ow : ℕ) : ℤ).toNat = ow := Int.toNat_natCast ow
  have t2 : ((oh : ℕ) : ℤ).toNat = oh := Int.toNat_natCast oh
  have key : HPart (fcv_apply_matrix_3x3 P iw ih (some d) ow oh (some m)) hp fun r _ => r.1 ≠ none := by
    unfold fcv_apply_matrix_3x3
    dsimp only
    rw [if_neg (by omega), t1, t2, if_neg (P.guard_of_mul_le hoh (by omega)), P.sz_eq (by omega),
      if_neg (P.guard_of_mul_le (by omega) (by omega)), P.sz_eq (by omega)]
    refine HPart.bind (P := fun b _ => b ≠ none) ?_ ?_
    · intro b h1 e
      unfold calloc at e
      rw [hf] at e
      cases e
      simp
    · intro b h1 hb
      cases b with
      | none => exact absurd rfl hb
      | some b => exact HPart.seq fun c h2 => HPart.pure (by simp)
  intro e
  exact key _ _ e rfl

/-! ### C116: the content of the extracted document -/

theorem use_nil {α : Type} (c : CM α) (h : Heap) : use [] c h = match c with | .error e => .error (.comp e) | .ok a => .ok (a, h) := by
  unfold use
  simp
  cases c <;> rfl

/-- The outcome of computing a matrix depends on the heap in only one way: whether its allocation fails. -/
theorem calc_pure (s k : Corners Dbl) : (∀ hp, fcv_calculate_perspective_transform Arith.dbl (some s) (some k) hp = .ok (.static, hp)) ∨
    ∃ m, ∀ hp h' t, fcv_calculate_perspective_transform Arith.dbl (some s) (some k) hp = .ok (t, h') → ∃ id, t = .heap id m := by
  unfold fcv_calculate_perspective_transform
  dsimp only
  split
  · exact Or.inl fun _ => rfl
  split
  · exact Or.inl fun _ => rfl
  obtain ⟨r, hr, -⟩ := dbl_solve s k
  rw [hr]
  cases r with
  | none =>
    left
    intro hp
    rw [hm_bind, use_nil]
    rfl
  | some x =>
    cases hb : solutionOk Arith.dbl x with
    | error e =>
      right
      refine ⟨Mat.identity Arith.dbl, fun hp h' t e1 => ?_⟩
      rw [hm_bind, use_nil] at e1
      dsimp only at e1
      rw [hb, hm_bind, use_nil] at e1
      cases e1
    | ok b =>
      cases b with
      | false =>
        left
        intro hp
        rw [hm_bind, use_nil]
        dsimp only
        rw [hb, hm_bind, use_nil]
        rfl
      | true =>
        right
        cases hm : (do
              let m00 ← rd x 0
              let m01 ← rd x 1
              let m02 ← rd x 2
              let m10 ← rd x 3
              let m11 ← rd x 4
              let m12 ← rd x 5
              let m20 ← rd x 6
              let m21 ← rd x 7
              pure ⟨m00, m01, m02, m10, m11, m12, m20, m21, Arith.dbl.ofRat 1⟩ : CM (Mat Dbl)) with
        | error e =>
          refine ⟨Mat.identity Arith.dbl, fun hp h' t e1 => ?_⟩
          rw [hm_bind, use_nil] at e1
          dsimp only at e1
          rw [hb, hm_bind, use_nil] at e1
          dsimp only at e1
          rw [if_pos rfl, hm_bind] at e1
          cases hmal : malloc Dbl 9 hp with
          | error e => rw [hmal] at e1; cases e1
          | ok q =>
            obtain ⟨q, h2⟩ := q
            rw [hmal] at e1
            cases q with
            | none => cases e1
            | some q =>
              dsimp only at e1
              rw [hm, hm_bind] at e1
              unfold use at e1
              split at e1
              · cases e1
              · rename_i he
                split at he <;> cases he
        | ok m =>
          refine ⟨m, fun hp h' t e1 => ?_⟩
          rw [hm_bind, use_nil] at e1
          dsimp only at e1
          rw [hb, hm_bind, use_nil] at e1
          dsimp only at e1
          rw [if_pos rfl, hm_bind] at e1
          cases hmal : malloc Dbl 9 hp with
          | error e => rw [hmal] at e1; cases e1
          | ok q =>
            obtain ⟨q, h2⟩ := q
            rw [hmal] at e1
            cases q with
            | none => cases e1
            | some q =>
              dsimp only at e1
              rw [hm, hm_bind] at e1
              unfold use at e1
              split at e1
              · cases e1
              · rename_i he
                split at he
                · cases he
                  cases e1
                  exact ⟨_, rfl⟩
                · cases he

/-- The library's transformation between two quadrilaterals is one matrix, whatever the state of the heap. -/
theorem transform_unique {s k : Corners Dbl} {m m' : Mat Dbl} (h : Transform s k m) (h' : Transform s k m') : m = m' := by
  obtain ⟨hp, h1, t, e, ht⟩ := h
  obtain ⟨hp', h1', t', e', ht'⟩ := h'
  rcases calc_pure s k with hs | ⟨n, hn⟩
  · rw [hs] at e e'
    cases e
    cases e'
    rcases ht with ⟨-, rfl⟩ | ⟨id, hid⟩
    · rcases ht' with ⟨-, rfl⟩ | ⟨id, hid⟩
      · rfl
      · cases hid
    · cases hid
  · obtain ⟨i, rfl⟩ := hn _ _ _ e
    obtain ⟨i', rfl⟩ := hn _ _ _ e'
    rcases ht with ⟨hs, -⟩ | ⟨id, hid⟩
    · cases hs
    · rcases ht' with ⟨hs, -⟩ | ⟨id', hid'⟩
      · cases hs
      · cases hid
        cases hid'
        rfl

theorem upright_eq {ow oh : Nat} (h1 : 0 < ow) (h2 : 0 < oh) (h3 : ow < 2147483648) (h4 : oh < 2147483648) : rectCorners ow oh = upright ow oh := by
  unfold rectCorners upright
  rw [u32sub_eq (by omega) (by omega), u32sub_eq (by omega) (by omega), Nat.cast_sub (by omega), Nat.cast_sub (by omega)]
  rfl

/-- `run` extracts the document with the corners `k` from the `w x h` image `d`, at the size `ow x oh`: the result is the image seen
through the transformation from the upright rectangle to the corners; the run fails just if a coordinate does not fit `int32_t`. -/
def Extracts (run : HM (Option (Buf UInt8))) (hp : Heap) (w h : Nat) (d : List UInt8) (k : Corners Dbl) (ow oh : Nat) : Prop :=
  ∃ m, Transform (upright ow oh) k m ∧
    (CoordsFit (patchFlip w h m) ow oh → HOk run hp fun r _ => ∃ b out, r = some b ∧ b.cells = out.map some ∧
      Warped (patchFlip w h m) w h d ow oh out) ∧
    (¬ CoordsFit (patchFlip w h m) ow oh → HErr run hp)

/-- The matrix that the pointer returned by `fcv_calculate_perspective_transform` points to. -/
def pointee : TMat Dbl → Mat Dbl
  | .static => Mat.identity Arith.dbl
  | .heap _ m => m

theorem warpDocument_extracts (P : Plat) {hp : Heap} (hf : ∀ i, hp.fails i = false) {w h ow oh : Nat} (hw : 0 < w) (hh : 0 < h)
    (how : 0 < ow) (hoh : 0 < oh) (hi : w * h ≤ 536870912) (ho : ow * oh ≤ 536870912) {d : List UInt8} (hd : d.length = w * h * 4)
    (k : Corners Dbl) : Extracts (warpDocument P w h d k ow oh) hp w h d k ow oh := by
  have a1 : w ≤ w * h := Nat.le_mul_of_pos_right _ hh
  have a2 : h ≤ w * h := Nat.le_mul_of_pos_left _ hw
  have a3 : ow ≤ ow * oh := Nat.le_mul_of_pos_right _ hoh
  have a4 : oh ≤ ow * oh := Nat.le_mul_of_pos_left _ how
  obtain ⟨t, h1, et, ht⟩ := perspective_total_partial (some (upright ow oh)) (some k) (hf hp.next)
  have er : warpDocument P w h d k ow oh hp = ((do
      let r ← fcv_apply_matrix_3x3 P w h (some d) ow oh (some (pointee t))
      match r.2 with
      | none => pure r.1
      | some m' =>
        if m'.isIdentity then pure r.1
        else match t with
          | .static => freeStatic
          | .heap id _ => do
            free id
            pure r.1) : HM (Option (Buf UInt8))) h1 := by
    unfold warpDocument
    rw [upright_eq how hoh (by omega) (by omega), i32OfU32_eq (by omega), i32OfU32_eq (by omega), i32OfU32_eq (by omega), i32OfU32_eq (by omega)]
    rw [hm_bind, et]
    rfl
  have f1 : ∀ i, h1.fails i = false := by
    cases t with
    | static => dsimp only at ht; rw [ht]; exact hf
    | heap id m => dsimp only at ht; rw [ht.2.2.2.1]; exact hf
  refine ⟨pointee t, ⟨hp, h1, t, et, ?_⟩, ?_, ?_⟩
  · cases t with
    | static => exact Or.inl ⟨rfl, rfl⟩
    | heap id m => exact Or.inr ⟨id, rfl⟩
  · intro hc
    obtain ⟨⟨r, m'⟩, h2, e, e2, hr⟩ := apply_warps_partial P hw hh how hoh hi ho hd hc h1
    unfold HOk
    rw [er, hm_bind, e]
    dsimp only at e2 hr ⊢
    subst e2
    dsimp only
    cases r with
    | none =>
      obtain ⟨-, -, -, i, -, -, hi⟩ := hr
      rw [f1 i] at hi
      cases hi
    | some b =>
      obtain ⟨⟨l2, fl, n1, n2⟩, out, ho, hwp⟩ := hr
      split
      · exact ⟨some b, h2, rfl, b, out, rfl, ho, hwp⟩
      · rename_i hid
        cases t with
        | static =>
          change ¬ (patchFlip w h (Mat.identity Arith.dbl)).isIdentity = true at hid
          rw [patchFlip_identity, isIdentity_identity] at hid
          exact absurd rfl hid
        | heap id m =>
          dsimp only at ht ⊢
          have hin : id ∈ h2.live := by rw [l2, ht.1]; simp
          exact ⟨some b, _, by simp [hm_bind, FlatCV.free, hin]; rfl, b, out, rfl, ho, hwp⟩
  · intro hc
    unfold HErr
    rw [er, hm_bind]
    cases ha : fcv_apply_matrix_3x3 P w h (some d) ow oh (some (pointee t)) h1 with
    | error e => exact ⟨e, rfl⟩
    | ok r =>
      obtain ⟨⟨r, m'⟩, h2⟩ := r
      cases r with
      | some b => exact absurd (apply_needs_fit P ha) hc
      | none => exact absurd ha (apply_some P f1 hw hh how hoh ho)

/-- C116: extraction from a valid image returns the image warped by the transformation from the upright rectangle of the requested
size to the corners that `fcv_detect_corners` reports. -/
theorem extract_document_warps (P : Plat) {M : MathLib} {hp h' : Heap} (hf : ∀ i, hp.fails i = false) {w h ow oh : Nat}
    (how : 0 < ow) (hoh : 0 < oh) (ho : ow * oh ≤ 536870912) {d : List UInt8} (im : Img P w h 4 d) (hi : w * h ≤ 536870912)
    {k : Corners Dbl} (hk : fcv_detect_corners P M.ex M.at2 M.asn (some d) w h hp = .ok (k, h')) :
    Extracts (fcv_extract_document P M w h (some d) ow oh) hp w h d k ow oh := by
  have hw := im.w_pos
  have hh := im.h_pos
  have a1 : w ≤ w * h := Nat.le_mul_of_pos_right _ hh
  have a2 : h ≤ w * h := Nat.le_mul_of_pos_left _ hw
  obtain ⟨L, -, -, hfl, -⟩ := (detect_corners_tidy_partial (P := P) (M := M) (d := some d) hp).2.2 _ _ hk
  have er : fcv_extract_document P M w h (some d) ow oh hp = warpDocument P w h d k ow oh h' := by
    unfold fcv_extract_document
    dsimp only
    rw [i32OfU32_eq (by omega), i32OfU32_eq (by omega), hm_bind, hk]
  obtain ⟨m, h1, h2, h3⟩ := warpDocument_extracts P (hp := h') (by rw [hfl]; exact hf) hw hh how hoh hi ho im.len k
  refine ⟨m, h1, fun hc => ?_, fun hc => ?_⟩
  · unfold HOk
    rw [er]
    exact h2 hc
  · unfold HErr
    rw [er]
    exact h3 hc

/-- C116: extraction fails like corner detection. -/
theorem extract_document_fails (P : Plat) {M : MathLib} {hp : Heap} {w h : Nat} (ow oh : Nat) (hw : w < 2147483648) (hh : h < 2147483648)
    {d : List UInt8} {e : HFault} (hk : fcv_detect_corners P M.ex M.at2 M.asn (some d) w h hp = .error e) :
    fcv_extract_document P M w h (some d) ow oh hp = .error e ∧ fcv_extract_document_auto P M w h (some d) hp = .error e := by
  constructor
  · unfold fcv_extract_document
    dsimp only
    rw [i32OfU32_eq (by omega), i32OfU32_eq (by omega), hm_bind, hk]
  · unfold fcv_extract_document_auto
    dsimp only
    rw [i32OfU32_eq (by omega), i32OfU32_eq (by omega), hm_bind, hk]

/-- C111, C116: `fcv_extract_document_auto` on a valid image: the size is that of the document, as long as its area is at most 2^29
pixels; it is reported, and the image is that of `fcv_extract_document` at that size. -/
theorem extract_document_auto_warps (P : Plat) {M : MathLib} (hex : ExpOk M.ex) (ha : AtanRange M.at2) (hM : PowOk M.pow2) {hp h' : Heap}
    (hf : ∀ i, hp.fails i = false) {w h : Nat} {d : List UInt8} (im : Img P w h 4 d) (hi : w * h ≤ 536870912)
    {k : Corners Dbl} (hk : fcv_detect_corners P M.ex M.at2 M.asn (some d) w h hp = .ok (k, h')) :
    CornersInside w h k ∧ ∃ W H, DocumentSize k W H ∧
      (∀ r s h'', fcv_extract_document_auto P M w h (some d) hp = .ok ((r, s), h'') → s = some (W, H)) ∧
      (W * H ≤ 536870912 → Extracts (do let r ← fcv_extract_document_auto P M w h (some d); pure r.1) hp w h d k W H) := by
  have hw := im.w_pos
  have hh := im.h_pos
  have a1 : w ≤ w * h := Nat.le_mul_of_pos_right _ hh
  have a2 : h ≤ w * h := Nat.le_mul_of_pos_left _ hw
  have hin := detect_corners_inside P hex ha M.asn hf im (by omega) hk
  obtain ⟨L, -, -, hfl, -⟩ := (detect_corners_tidy_partial (P := P) (M := M) (d := some d) hp).2.2 _ _ hk
  obtain ⟨W, H, e, hD⟩ := document_size hM (w := w) (h := h) (by omega) (by omega) hin
  have er : fcv_extract_document_auto P M w h (some d) hp = (do
      let r ← warpDocument P w h d k W H
      pure (r, some (W, H)) : HM (Option (Buf UInt8) × Option (Nat × Nat))) h' := by
    unfold fcv_extract_document_auto
    dsimp only
    rw [i32OfU32_eq (by omega), i32OfU32_eq (by omega), hm_bind, hk]
    dsimp only
    rw [hm_bind, use_nil, e]
  refine ⟨hin, W, H, hD, ?_, fun ho => ?_⟩
  · intro r s h'' e1
    rw [er, hm_bind] at e1
    cases hr : warpDocument P w h d k W H h' with
    | error x => rw [hr] at e1; cases e1
    | ok q => rw [hr] at e1; cases e1; rfl
  · have hW := hD
    obtain ⟨_, _, _, _, -, -, -, -, rW, rH⟩ := hD
    obtain ⟨m, h1, h2, h3⟩ := warpDocument_extracts P (hp := h') (by rw [hfl]; exact hf) hw hh (by have := rW.least; omega)
      (by have := rH.least; omega) hi ho im.len k
    refine ⟨m, h1, fun hc => ?_, fun hc => ?_⟩
    · obtain ⟨r, h5, e5, b, out, e6, e7⟩ := h2 hc
      refine ⟨r, h5, ?_, b, out, e6, e7⟩
      rw [hm_bind, er, hm_bind, e5]
      rfl
    · obtain ⟨x, e5⟩ := h3 hc
      refine ⟨x, ?_⟩
      rw [hm_bind, er, hm_bind, e5]

theorem squareDist_le {w h : Nat} (hw : w ≤ 16000) (hh : h ≤ 16000) {ax ay bx b_y : Dbl} (ha : StrictlyInside w h ax ay)
    (hb : StrictlyInside w h bx b_y) {s : ℚ} (hs : SquareDist ax ay bx b_y s) : s ≤ 512000000 := by
  obtain ⟨p, q, p', q', rfl, rfl, rfl, rfl, rfl⟩ := hs
  obtain ⟨_, _, e1, e2, a1, a2, a3, a4⟩ := ha
  obtain ⟨_, _, e3, e4, b1, b2, b3, b4⟩ := hb
  cases e1
  cases e2
  cases e3
  cases e4
  have w1 : (w : ℚ) ≤ 16000 := by exact_mod_cast hw
  have h1 : (h : ℚ) ≤ 16000 := by exact_mod_cast hh
  have k1 : (p - p') ^ 2 ≤ 16000 ^ 2 := sq_le_sq' (by linarith) (by linarith)
  have k2 : (q - q') ^ 2 ≤ 16000 ^ 2 := sq_le_sq' (by linarith) (by linarith)
  linarith

theorem rounded_le {s : ℚ} {n : Nat} (h : RoundedLength s n) (hs : s ≤ 512000000) : n ≤ 22629 := by
  by_contra hc
  have h1 := h.down (by omega)
  have h2 : (22630 : ℚ) ≤ n := by exact_mod_cast (by omega : 22630 ≤ n)
  have h3 : ((22630 : ℚ) - 1 / 2 - 1 / 1000) ^ 2 ≤ ((n : ℚ) - 1 / 2 - 1 / 1000) ^ 2 := pow_le_pow_left₀ (by norm_num) (by linarith) 2
  norm_num at h3
  linarith

/-- The area is small enough for every image of at most 16000 by 16000 pixels. -/
theorem document_area {w h W H : Nat} (hw : w ≤ 16000) (hh : h ≤ 16000) {k : Corners Dbl} (hk : CornersInside w h k) (hD : DocumentSize k W H) :
    W * H ≤ 536870912 := by
  obtain ⟨k1, k2, k3, k4⟩ := hk
  obtain ⟨_, _, _, _, s1, s2, s3, s4, rW, rH⟩ := hD
  have h1 := rounded_le rW (max_le (squareDist_le hw hh k1 k2 s1) (squareDist_le hw hh k4 k3 s2))
  have h2 := rounded_le rH (max_le (squareDist_le hw hh k1 k4 s3) (squareDist_le hw hh k2 k3 s4))
  calc W * H ≤ 22629 * 22629 := Nat.mul_le_mul h1 h2
    _ ≤ 536870912 := by norm_num

/-- A 4x3 image with the bytes 0 to 47. -/
def bytes48 : List UInt8 := (List.range 48).map UInt8.ofNat

/-- The lower right 3x2 pixels of it, as a document. -/
example (P : Plat) {hp : Heap} (hf : ∀ i, hp.fails i = false) :
    Extracts (warpDocument P 4 3 bytes48 ⟨.fin 1, .fin 1, .fin 3, .fin 1, .fin 3, .fin 2, .fin 1, .fin 2⟩ 3 2) hp 4 3 bytes48
      ⟨.fin 1, .fin 1, .fin 3, .fin 1, .fin 3, .fin 2, .fin 1, .fin 2⟩ 3 2 :=
  warpDocument_extracts P hf (by norm_num) (by norm_num) (by norm_num) (by norm_num) (by norm_num) (by norm_num) (by decide) _

example : (match warpDocument Plat.lp64 4 3 bytes48 ⟨.fin 1, .fin 1, .fin 3, .fin 1, .fin 3, .fin 2, .fin 1, .fin 2⟩ 3 2 Heap.fresh with
      | .ok (some b, h) => (b.cells, h.live)
      | _ => ([], [])) =
    ([some 20, some 21, some 22, some 23, some 24, some 25, some 26, some 27, some 28, some 29, some 30, some 31, some 36, some 37, some 38,
      some 39, some 40, some 41, some 42, some 43, some 44, some 45, some 46, some 47], [1]) := by decide +kernel

/-- A document in an oblique quadrilateral. -/
example : (match warpDocument Plat.lp64 4 3 bytes48 ⟨.fin 3, .fin 1, .fin 3, .fin 2, .fin 0, .fin 2, .fin 1, .fin 0⟩ 3 2 Heap.fresh with
      | .ok (some b, h) => (b.cells, h.live)
      | _ => ([], [])) =
    ([some 28, some 29, some 30, some 31, some 35, some 36, some 37, some 38, some 44, some 45, some 46, some 47, some 4, some 5, some 6,
      some 7, some 15, some 16, some 17, some 18, some 32, some 33, some 34, some 35], [1]) := by decide +kernel

end FlatCV.Props
