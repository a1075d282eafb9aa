/-
C10, C11 for the functions built on corner detection.
-/
import Verif.Props.Tidy

namespace FlatCV.Props
open Model Spec

variable {P : Plat} {w h : Nat} {d : Option (List UInt8)}

macro_rules | `(tactic| tidy_lib) => `(tactic| exact resize_tidy)
macro_rules | `(tactic| tidy_lib) => `(tactic| exact sobel_tidy)
macro_rules | `(tactic| tidy_lib) => `(tactic| exact add_border_tidy)
macro_rules | `(tactic| tidy_lib) => `(tactic| exact watershed_tidy)
macro_rules | `(tactic| tidy_lib) => `(tactic| exact convert_to_binary_tidy)
macro_rules | `(tactic| tidy_lib) => `(tactic| exact closing_tidy)
macro_rules | `(tactic| tidy_lib) => `(tactic| exact foerstner_corner_tidy)
macro_rules | `(tactic| tidy_lib) => `(tactic| exact apply_matrix_tidy)

/-- What `fcv_corner_peaks` leaves: the structure and, if there are peaks, their coordinates. -/
theorem corner_peaks_tidy {md : Nat} {acc rou : Dbl} (hp : Heap) :
    HeapSafe (fcv_corner_peaks P w h d md acc rou) hp fun r h' => match r with
      | none => HeapEffect hp h' []
      | some p => HeapEffect hp h' (p.id :: (p.points.map (·.id)).toList) ∧ NoneFailed hp h' := by
  have := TK.start hp
  unfold fcv_corner_peaks
  repeat' tidy_step
  all_goals refine tk_pure ?_
  all_goals first
    | exact TK.eff ‹_›
    | exact TK.effOk ‹_›


/-- `count_colors` leaves nothing. -/
theorem count_colors_tidy {w h : Int} (hp : Heap) : HeapSafe (count_colors w h d) hp fun _ h' => HeapEffect hp h' [] := by
  have := TK.start hp
  unfold count_colors
  repeat' tidy_step
  all_goals refine tk_pure ?_
  all_goals exact TK.eff ‹_›

section
variable {hp hh : Heap} {X : List Nat} {c : Bool}

theorem nextImage_track {b : Buf UInt8} {f : List UInt8 → HM (Option (Buf UInt8))} (hf : ∀ d, Tidy (f d))
    (t : TK hp hh (b.id :: X) c) : HeapSafe (nextImage b f) hh fun r h' => TK hp h' (r.id :: X) c := by
  unfold nextImage
  refine tk_use t (by simp) fun d => ?_
  refine tk_call (hf d) t ?_ ?_ <;> intros <;> dsimp only
  all_goals repeat' tidy_step
  refine tk_pure ?_
  assumption

theorem count_track {w h : Int} (t : TK hp hh X c) : HeapSafe (count_colors w h d) hh fun _ h' => ∃ c', TK hp h' X c' := by
  unfold count_colors
  repeat' tidy_step
  all_goals exact tk_pure (Exists.intro _ ‹TK _ _ _ _›)

theorem copyChannel_track {ow oh : Nat} {b : Buf UInt8} (t : TK hp hh (b.id :: X) c) :
    HeapSafe (copyChannel ow oh b) hh fun _ h' => TK hp h' (b.id :: X) c := by
  unfold copyChannel
  repeat' tidy_step
  exact tk_free_last ‹TK _ _ _ _›

theorem segmentImage_track {ow oh bw bh : Nat} {b : Buf UInt8} (t : TK hp hh (b.id :: X) c) :
    HeapSafe (segmentImage P ow oh bw bh b) hh fun r h' => ∃ l, TK hp h' (r.id :: l :: X) c := by
  unfold segmentImage
  repeat' tidy_step
  all_goals exact tk_pure (Exists.intro _ ‹TK _ _ _ _›)

/-- The blocks of the result of `fcv_corner_peaks`. -/
def peakPts (p : CornerPeaks) : List Nat := (p.points.map (·.id)).toList

theorem cornerResponse_track {ex : ℚ → ℚ} {img : List UInt8} (t : TK hp hh X c) :
    HeapSafe (cornerResponse P ex w h img) hh fun r h' => match r with
      | none => ∃ c', TK hp h' X c'
      | some q => ∃ l c', TK hp h' (q.1.id :: l :: X) c' := by
  unfold cornerResponse
  tidy_step
  · exact tk_pure ⟨_, ‹TK _ _ _ _›⟩
  tidy_step
  tidy_step
  tidy_step
  tidy_step
  · repeat' tidy_step
  tidy_step
  refine HeapSafe.bind (nextImage_track (fun _ => gaussian_blur_tidy) ‹TK _ _ _ _›) fun r1 h1 t1 => ?_
  refine HeapSafe.bind (nextImage_track (fun _ => sobel_tidy) t1) fun r2 h2 t2 => ?_
  tidy_step
  tidy_step
  · repeat' tidy_step
  tidy_step
  split
  · rename_i bb bw bh he
    cases he
    refine HeapSafe.bind (segmentImage_track ‹TK _ _ _ _›) ?_
    rintro r3 h3 ⟨l, t3⟩
    tidy_step
    refine HeapSafe.bind (count_track t3) ?_
    rintro n h4 ⟨c4, t4⟩
    split
    · repeat' tidy_step
    tidy_step
    · repeat' tidy_step
      refine HeapSafe.bind (nextImage_track (fun _ => foerstner_corner_tidy) ‹TK _ _ _ _›) fun r5 h5 t5 => ?_
      exact tk_pure ⟨_, _, t5⟩
    · tidy_step
      tidy_step
      tidy_step
      · repeat' tidy_step
      tidy_step
      tidy_step
      refine HeapSafe.bind (nextImage_track (fun _ => foerstner_corner_tidy) ‹TK _ _ _ _›) fun r5 h5 t5 => ?_
      exact tk_pure ⟨_, _, t5⟩
  · tidy_step

theorem sort_track {at2 : Dbl → Dbl → Dbl} {ow oh n : Nat} {pts : List Pt} {r : Option (Cells Pt)} (t : TK hp hh X c) :
    HeapSafe (sort_corners P at2 w h ow oh pts n r) hh fun _ h' => ∃ c', TK hp h' X c' := by
  unfold sort_corners
  repeat' tidy_step
  all_goals exact tk_pure (Exists.intro _ ‹TK _ _ _ _›)

theorem peaks_track {md : Nat} {acc rou : Dbl} (t : TK hp hh X c) :
    HeapSafe (fcv_corner_peaks P w h d md acc rou) hh fun r h' => match r with
      | none => ∃ c', TK hp h' X c'
      | some p => TK hp h' (p.id :: (peakPts p ++ X)) c := by
  unfold fcv_corner_peaks
  repeat' tidy_step
  all_goals first
    | exact tk_pure (Exists.intro _ ‹TK _ _ _ _›)
    | exact tk_pure ‹TK _ _ _ _›

theorem searchPeaks_track {ow oh : Nat} {img : List UInt8} : ∀ (fuel : Nat) {acc rou : Dbl} {hh : Heap}, TK hp hh X c →
    HeapSafe (searchPeaks P ow oh img fuel acc rou) hh fun r h' => match r with
      | none => ∃ c', TK hp h' X c'
      | some p => TK hp h' (p.id :: (peakPts p ++ X)) c
  | 0, _, _, _, _ => tk_err
  | fuel + 1, acc, rou, hh, t => by
    unfold searchPeaks
    refine HeapSafe.bind (peaks_track t) fun r h' hr => ?_
    cases r with
    | none => exact tk_pure hr
    | some p =>
      dsimp only at hr ⊢
      split
      · split
        · obtain ⟨i, pts, n⟩ := p
          cases pts with
          | none =>
            refine tk_freeOpt_none ?_
            refine tk_free0 hr ?_
            intro h' t'
            exact searchPeaks_track fuel t'
          | some b =>
            refine tk_freeOpt_some ?_
            refine tk_free1 hr ?_
            intro h' t'
            refine tk_free0 t' ?_
            intro h' t'
            exact searchPeaks_track fuel t'
        · exact tk_pure hr
      · exact tk_pure hr

theorem selectCorners_track {at2 : Dbl → Dbl → Dbl} {asn : Dbl → Dbl} {ow oh : Nat} {p : CornerPeaks}
    (t : TK hp hh (p.id :: (peakPts p ++ X)) c) :
    HeapSafe (selectCorners P at2 asn w h ow oh p) hh fun _ h' => ∃ c', TK hp h' (peakPts p ++ X) c' := by
  unfold selectCorners
  refine HeapSafe.bind (P := fun _ h' => h' = hh) ?_ ?_
  · split
    · exact tk_pure rfl
    · rename_i b hb
      rw [← hm_bind_pure (use _ _)]
      refine tk_use t ?_ fun v => tk_pure rfl
      simp [peakPts, hb]
  rintro pts h' rfl
  tidy_step
  · refine HeapSafe.bind (sort_track ‹TK _ _ _ _›) ?_
    rintro r h4 ⟨c4, t4⟩
    tidy_step
  rename_i h2 b2 t2
  refine HeapSafe.bind (sort_track t2) ?_
  rintro r h4 ⟨c4, t4⟩
  split
  · rename_i sb cells he1 he2
    cases he1
    tidy_step
    tidy_step
    refine HeapSafe.bind (P := fun _ h' => ∃ c', TK hp h' (b2.id :: p.id :: (peakPts p ++ X)) c') ?_ ?_
    · split
      · repeat' tidy_step
        exact tk_pure (Exists.intro _ ‹TK _ _ _ _›)
      · rw [← hm_bind_pure (use _ _)]
        exact tk_use t4 (by simp) fun v => tk_pure ⟨_, t4⟩
    · rintro k h5 ⟨c5, t5⟩
      tidy_step
      tidy_step
      exact tk_pure (Exists.intro _ ‹TK _ _ _ _›)
  · tidy_step

end

/-- C11 for corner detection: at most two of the blocks allocated are still live afterwards (that these two are lost is
`detect_corners_leaks`); no block is released twice or used after its release, for any image and any allocation failures. -/
theorem detect_corners_tidy_partial {M : MathLib} {w h : Int} (hp : Heap) :
    HeapSafe (fcv_detect_corners P M.ex M.at2 M.asn d w h) hp fun _ h' => ∃ L, L.length ≤ 2 ∧ HeapEffect hp h' L := by
  have t := TK.start hp
  unfold fcv_detect_corners
  split
  · tidy_step
  split
  · tidy_step
  dsimp only
  refine HeapSafe.bind (cornerResponse_track t) fun r h1 hr => ?_
  cases r with
  | none =>
    obtain ⟨c', t'⟩ := hr
    exact tk_pure ⟨[], by simp, t'.eff⟩
  | some q =>
    obtain ⟨b, ow, oh⟩ := q
    obtain ⟨l, c1, t1⟩ := hr
    dsimp only at t1 ⊢
    refine HeapSafe.bind (copyChannel_track t1) fun _ h2 t2 => ?_
    tidy_step
    refine HeapSafe.bind (searchPeaks_track searchFuel t2) fun p h3 hp3 => ?_
    cases p with
    | none =>
      obtain ⟨c3, t3⟩ := hp3
      repeat' tidy_step
    | some p =>
      dsimp only at hp3 ⊢
      refine tk_free (Y := p.id :: (peakPts p ++ [l])) hp3 ?_ ?_
      · exact (List.Perm.cons _ List.perm_middle).trans (List.Perm.swap _ _ _)
      intro h4 t4
      have := @selectCorners_track P w.toNat h.toNat hp h4 [l] c1 M.at2 M.asn ow oh p t4
      refine ⟨this.1, this.2.1, fun r h' e => ?_⟩
      obtain ⟨c', t'⟩ := this.2.2 r h' e
      refine ⟨_, ?_, t'.eff⟩
      unfold peakPts
      cases p.points <;> simp

/-- The same for the variant that returns the corners in a block. -/
theorem detect_corners_ptr_tidy_partial {M : MathLib} {w h : Int} (hp : Heap) :
    HeapSafe (fcv_detect_corners_ptr P M d w h) hp fun r h' => ∃ L, L.length ≤ 2 ∧ HeapEffect hp h' (match r with
      | none => L
      | some q => q.1 :: L) := by
  unfold fcv_detect_corners_ptr
  refine HeapSafe.bind (detect_corners_tidy_partial hp) ?_
  rintro k h1 ⟨L, hL, e⟩
  refine tk_malloc e.tk ?_ ?_
  · intro h2 t2
    exact tk_pure ⟨L, hL, t2.eff⟩
  · intro h2 b t2
    exact tk_pure ⟨L, hL, t2.eff⟩

/-! ### Extraction -/

theorem perspective_track {R : Arith α} {src dst : Option (Corners α)} {hp hh : Heap} {X : List Nat} {c : Bool} (t : TK hp hh X c) :
    HeapSafe (fcv_calculate_perspective_transform R src dst) hh fun r h' => match r with
      | .static => TK hp h' X c
      | .heap i _ => TK hp h' (i :: X) c := by
  unfold fcv_calculate_perspective_transform
  repeat' tidy_step
  all_goals exact tk_pure ‹TK _ _ _ _›

theorem patchFlip_identity (w h : Int) : patchFlip w h (Mat.identity Arith.dbl) = Mat.identity Arith.dbl := by
  unfold patchFlip
  rw [if_neg]
  decide +kernel

theorem isIdentity_identity : (Mat.identity Arith.dbl).isIdentity = true := by decide +kernel

/-- Applying the identity leaves it as it is. -/
theorem apply_keeps_identity {iw ih ow oh : Int} {hp h' : Heap} {r : Option (Buf UInt8) × Option (Mat Dbl)}
    (e : fcv_apply_matrix_3x3 P iw ih d ow oh (some (Mat.identity Arith.dbl)) hp = .ok (r, h')) :
    r.2 = some (Mat.identity Arith.dbl) := by
  have : HPart (fcv_apply_matrix_3x3 P iw ih d ow oh (some (Mat.identity Arith.dbl))) hp fun r _ =>
      r.2 = some (Mat.identity Arith.dbl) := by
    unfold fcv_apply_matrix_3x3
    cases d with
    | none => exact HPart.pure rfl
    | some d =>
      dsimp only
      split
      · exact HPart.pure rfl
      split
      · exact HPart.pure rfl
      split
      · exact HPart.pure rfl
      rw [patchFlip_identity]
      refine HPart.seq fun b h' => ?_
      cases b with
      | none => exact HPart.pure rfl
      | some b => exact HPart.seq fun c h' => HPart.pure rfl
  exact this r h' e

theorem apply_matrix_track {iw ih ow oh : Int} {m : Option (Mat Dbl)} {hp hh : Heap} {X : List Nat} {c : Bool} (t : TK hp hh X c) :
    HeapSafe (fcv_apply_matrix_3x3 P iw ih d ow oh m) hh fun r h' => ∃ c', TK hp h' ((r.1.map (·.id)).toList ++ X) c' := by
  rw [← hm_bind_pure (fcv_apply_matrix_3x3 P iw ih d ow oh m)]
  refine tk_callWith apply_matrix_tidy t ?_ ?_
  · intro h' x t'
    exact tk_pure ⟨_, t'⟩
  · intro h' b x t'
    exact tk_pure ⟨_, t'⟩

/-- The end of an extraction: the matrix is released unless it is the identity; the static matrix never is. -/
theorem warpDocument_track {im : List UInt8} {k : Corners Dbl} {ow oh : Nat} {hp hh : Heap} {X : List Nat} {c : Bool}
    (t : TK hp hh X c) : HeapSafe (warpDocument P w h im k ow oh) hh fun r h' =>
      ∃ L c', L.length ≤ 1 ∧ TK hp h' ((r.map (·.id)).toList ++ L ++ X) c' := by
  unfold warpDocument
  refine HeapSafe.bind (perspective_track t) ?_
  rintro m h1 t1
  dsimp only
  cases m with
  | static =>
    dsimp only at t1 ⊢
    have hs : HeapSafe (fcv_apply_matrix_3x3 P (i32OfU32 w) (i32OfU32 h) (some im) (i32OfU32 ow) (i32OfU32 oh)
        (some (Mat.identity Arith.dbl))) h1 fun r h' => r.2 = some (Mat.identity Arith.dbl) ∧
          ∃ c', TK hp h' ((r.1.map (·.id)).toList ++ X) c' := by
      have e := @apply_matrix_track P (some im) (i32OfU32 w) (i32OfU32 h) (i32OfU32 ow) (i32OfU32 oh)
        (some (Mat.identity Arith.dbl)) hp h1 X c t1
      exact ⟨e.1, e.2.1, fun r h' he => ⟨apply_keeps_identity he, e.2.2 r h' he⟩⟩
    refine HeapSafe.bind hs ?_
    rintro ⟨r, m'⟩ h2 ⟨rfl, c', t2⟩
    dsimp only
    rw [if_pos isIdentity_identity]
    exact tk_pure ⟨[], c', by simp, by simpa using t2⟩
  | heap i m =>
    dsimp only at t1 ⊢
    refine HeapSafe.bind (apply_matrix_track t1) ?_
    rintro ⟨r, m'⟩ h2 ⟨c', t2⟩
    dsimp only at t2 ⊢
    split
    · exact tk_pure ⟨[i], c', by simp, by simpa using t2⟩
    · split
      · exact tk_pure ⟨[i], c', by simp, by simpa using t2⟩
      · refine tk_free' t2 fun h3 t3 => tk_pure ⟨[], c', by simp, by simpa using t3⟩

/-- C11 for extraction to a given size: besides the image at most three blocks are left: the two of corner detection, and a
transformation matrix that happens to be the identity. -/
theorem extract_document_tidy_partial {M : MathLib} {ow oh : Nat} (hp : Heap) :
    HeapSafe (fcv_extract_document P M w h d ow oh) hp fun r h' =>
      ∃ L, L.length ≤ 3 ∧ HeapEffect hp h' ((r.map (·.id)).toList ++ L) := by
  unfold fcv_extract_document
  cases d with
  | none => exact tk_pure ⟨[], by simp, (TK.start hp).eff⟩
  | some im =>
    refine HeapSafe.bind (detect_corners_tidy_partial hp) ?_
    rintro k h1 ⟨L, hL, e⟩
    have := @warpDocument_track P w h im k ow oh hp h1 L false e.tk
    refine ⟨this.1, this.2.1, fun r h' e => ?_⟩
    obtain ⟨L', c', hl, t'⟩ := this.2.2 r h' e
    refine ⟨L' ++ L, by simp; omega, ?_⟩
    rw [← List.append_assoc]
    exact t'.eff

/-- The same when the size is chosen by the function. -/
theorem extract_document_auto_tidy_partial {M : MathLib} (hp : Heap) :
    HeapSafe (fcv_extract_document_auto P M w h d) hp fun r h' =>
      ∃ L, L.length ≤ 3 ∧ HeapEffect hp h' ((r.1.map (·.id)).toList ++ L) := by
  unfold fcv_extract_document_auto
  cases d with
  | none => exact tk_pure ⟨[], by simp, (TK.start hp).eff⟩
  | some im =>
    refine HeapSafe.bind (detect_corners_tidy_partial hp) ?_
    rintro k h1 ⟨L, hL, e⟩
    have t1 : TK hp h1 L false := e.tk
    refine tk_use t1 (by simp) fun s => ?_
    refine HeapSafe.bind (warpDocument_track t1) ?_
    rintro r h2 ⟨L', c', hl, t'⟩
    refine tk_pure ⟨L' ++ L, by simp; omega, ?_⟩
    rw [← List.append_assoc]
    exact t'.eff

end FlatCV.Props
