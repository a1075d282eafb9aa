/-
C67: what the command line tool leaves on the heap.

No condition is placed on the operations, their parameters, the image or on which allocations fail.
-/
import Verif.Props.TidyDetect
import Verif.Props.Detect

namespace FlatCV.Props
open Model Spec

section
variable {P : Plat} {w h : Nat} {d : Option (List UInt8)}
macro_rules | `(tactic| tidy_lib) => `(tactic| exact rgba_to_grayscale_tidy)
macro_rules | `(tactic| tidy_lib) => `(tactic| exact single_to_multichannel_tidy)
end

section
variable {α β : Type} {hp hh : Heap} {X : List Nat} {c : Bool} {Q : β → Heap → Prop}

theorem tk_strdup {s : List Char} {f : Nat → HM β} (t : TK hp hh X c) (hs : ∀ h' i, TK hp h' (i :: X) c → HeapSafe (f i) h' Q) :
    HeapSafe (strdup s >>= f) hh Q := by
  unfold strdup
  rw [hm_assoc]
  refine tk_malloc t ?_ ?_
  · intro h' _
    exact tk_err_bind
  · intro h' b t'
    exact tk_pure_bind (hs h' b.id t')

theorem leaves_of_tidy {m : HM (Option (Buf α) × β)} (t : TidyWith m) (hp : Heap) : Leaves 0 m hp := by
  obtain ⟨t1, t2, t3⟩ := t hp
  refine ⟨t1, t2, fun r h' e => ?_⟩
  have := t3 r h' e
  dsimp only at this ⊢
  refine ⟨[], by simp, ?_⟩
  cases h : r.1 with
  | none => rw [h] at this; exact this
  | some b => rw [h] at this; exact ⟨this.1, fun _ => this.2⟩

theorem leaves_mono {m : HM (Option (Buf α) × β)} {hp : Heap} (h : Leaves 0 m hp) (k : Nat) : Leaves k m hp := by
  refine ⟨h.1, h.2.1, fun r h' e => ?_⟩
  obtain ⟨l, hl, q⟩ := h.2.2 r h' e
  refine ⟨l, by omega, ?_⟩
  cases h : r.1 with
  | none => rw [h] at q; exact q
  | some b => rw [h] at q; exact ⟨q.1, fun _ => q.2 rfl⟩

end

variable {P : Plat} {M : MathLib} {L : Lib} {w h : Int} {op : PipelineOp} {d : List UInt8}

theorem sameSize_tidy {m : HM (Option (Buf UInt8))} (t : Tidy m) : TidyWith (sameSize w h m) := by
  intro hp
  have := TK.start hp
  unfold sameSize
  refine tk_call t this ?_ ?_ <;> intros <;> repeat' tidy_step

theorem newSize_tidy {m : HM (Option (Buf UInt8) × Option (Nat × Nat))} (t : TidyWith m) : TidyWith (newSize w h m) := by
  intro hp
  have := TK.start hp
  unfold newSize
  refine tk_callWith t this ?_ ?_
  · intro h' x t'
    exact tk_pure t'.null
  · intro h' b x t'
    cases x with
    | none => exact tk_err
    | some x => exact tk_pure t'.effect

theorem givenSize_tidy {ow oh : Nat} {m : HM (Option (Buf UInt8))} (t : Tidy m) : TidyWith (givenSize w h ow oh m) := by
  intro hp
  have := TK.start hp
  unfold givenSize
  refine tk_call t this ?_ ?_ <;> intros <;> repeat' tidy_step

theorem copyOf_tidy {n : Nat} : Tidy (copyOf n d) := by tidy_fn copyOf
macro_rules | `(tactic| tidy_lib) => `(tactic| exact copyOf_tidy)

theorem drawOnCopy_tidy {n : Nat} {f : List UInt8 → CM (List UInt8)} : Tidy (drawOnCopy n d f) := by tidy_fn drawOnCopy
macro_rules | `(tactic| tidy_lib) => `(tactic| exact drawOnCopy_tidy)

theorem resizeOp_tidy : TidyWith (resizeOp P L w h op d) := by
  intro hp
  have t := TK.start hp
  unfold resizeOp resizeFactors
  have next : ∀ (r : Option (Dbl × Dbl)) (hh : Heap), TK hp hh [] true → HeapSafe (match r with
      | none => (Pure.pure (none, w, h) : HM OpResult)
      | some (x, y) => newSize w h (fcv_resize P (u32OfInt w) (u32OfInt h) x y (some d))) hh fun r h' => CallEffect hp h' r.1 := by
    intro r hh t
    cases r with
    | none => exact tk_pure t.null
    | some q => exact tk_tailWith (newSize_tidy resize_tidy) t
  split
  · rw [hm_assoc]
    refine tk_strdup t fun h1 i t1 => ?_
    rw [hm_assoc]
    refine tk_use t1 (by simp) fun v => ?_
    rw [hm_assoc]
    refine tk_free0 t1 fun h2 t2 => ?_
    exact tk_pure_bind (next _ _ t2)
  · split
    · exact tk_pure_bind (next (some (op.param, if op.has_param2 = true then op.param2 else op.param)) _ t)
    · exact tk_pure_bind (next none _ t)

theorem shapeOnCopy_tidy {draw : Option (List Char) → Dbl → Dbl → Dbl → List UInt8 → CM (List UInt8)} :
    TidyWith (shapeOnCopy P w h op d draw) := by
  intro hp
  have := TK.start hp
  unfold shapeOnCopy
  split
  · refine tk_strdup this fun h1 i t1 => ?_
    clear this
    repeat' tidy_step
  · exact tk_pure this.null

theorem watershedOp_tidy : Tidy (watershedOp P L w h op d) := by
  intro hp
  have := TK.start hp
  unfold watershedOp
  split
  · refine tk_strdup this fun h1 i t1 => ?_
    clear this
    repeat' tidy_step
  · exact tk_pure this.null

theorem cropOpRun_tidy : TidyWith (cropOpRun P w h op d) := by
  intro hp
  have := TK.start hp
  unfold cropOpRun
  split
  · dsimp only
    repeat' tidy_step
    all_goals exact tk_tailWith (givenSize_tidy crop_tidy) this
  · exact tk_pure this.null

theorem rotateOp_tidy : TidyWith (rotateOp P w h op d) := by
  intro hp
  have := TK.start hp
  unfold rotateOp
  split
  · dsimp only
    refine tk_use this (by simp) fun a => ?_
    split
    · exact tk_pure this.null
    split
    · exact tk_tailWith (sameSize_tidy copyOf_tidy) this
    split
    · refine tk_call rotate_90_tidy this ?_ ?_ <;> intros <;> repeat' tidy_step
    split
    · exact tk_tailWith (sameSize_tidy rotate_180_tidy) this
    · refine tk_call rotate_270_tidy this ?_ ?_ <;> intros <;> repeat' tidy_step
  · exact tk_pure this.null

theorem backToRGBA_tidy {m : HM (Option (Buf UInt8))} (t : Tidy m) : Tidy (backToRGBA P w h m) := by
  intro hp
  have := TK.start hp
  unfold backToRGBA
  refine tk_call t this ?_ ?_ <;> intros <;> repeat' tidy_step

theorem morphOp_tidy {f : List UInt8 → Int → HM (Option (Buf UInt8))} (t : ∀ g r, Tidy (f g r)) : Tidy (morphOp P w h op d f) := by
  unfold morphOp
  split
  · refine backToRGBA_tidy ?_
    intro hp
    have := TK.start hp
    refine tk_call rgba_to_grayscale_tidy this ?_ ?_ <;> intros
    · repeat' tidy_step
    · dsimp only
      refine tk_use ‹TK _ _ _ _› (by simp) fun g => ?_
      refine tk_use ‹TK _ _ _ _› (by simp) fun r => ?_
      refine tk_call (t g r) ‹TK _ _ _ _› ?_ ?_ <;> intros <;> repeat' tidy_step
  · exact tidy_none

theorem trimOp_tidy : TidyWith (trimOp P L w h op d) := by
  unfold trimOp
  split
  · exact trim_threshold_tidy
  · split
    · exact trim_threshold_tidy
    · exact trim_tidy

theorem tidyWith_null {v : Int × Int} : TidyWith (Pure.pure (none, v) : HM OpResult) := fun hp => tk_pure (TK.start hp).null

theorem borderOp_tidy : TidyWith (borderOp P w h op d) := by
  unfold borderOp
  split
  · intro hp
    refine tk_use (TK.start hp) (by simp) fun b => ?_
    exact tk_tailWith (newSize_tidy add_border_tidy) (TK.start hp)
  · exact tidyWith_null

/-! ### The operations -/

/-- The operations that detect corners. -/
def cornerOps : List (List Char) :=
  ["detect_corners".toList, "draw_corners".toList, "extract_document".toList, "extract_document_to".toList]

theorem tidy_ite {p : Prop} [Decidable p] {a b : HM OpResult} (h1 : TidyWith a) (h2 : TidyWith b) : TidyWith (if p then a else b) := by
  split
  · exact h1
  · exact h2

/-- Every operation but those that detect corners releases all blocks but its result. -/
theorem apply_operation_tidy (ho : op.operation ∉ cornerOps) : TidyWith (apply_operation P M L w h op d) := by
  simp only [cornerOps, List.mem_cons, List.not_mem_nil, or_false, not_or] at ho
  obtain ⟨o1, o2, o3, o4⟩ := ho
  unfold apply_operation
  simp only [if_neg o1, if_neg o2, if_neg o3, if_neg o4]
  refine tidy_ite (sameSize_tidy grayscale_tidy) ?_
  refine tidy_ite (tidy_ite (sameSize_tidy gaussian_blur_tidy) tidyWith_null) ?_
  refine tidy_ite resizeOp_tidy ?_
  refine tidy_ite (sameSize_tidy otsu_tidy) ?_
  refine tidy_ite (sameSize_tidy bw_smart_tidy) ?_
  refine tidy_ite (sameSize_tidy bw_smart_tidy) ?_
  refine tidy_ite (sameSize_tidy (backToRGBA_tidy sobel_tidy)) ?_
  refine tidy_ite shapeOnCopy_tidy ?_
  refine tidy_ite shapeOnCopy_tidy ?_
  refine tidy_ite (sameSize_tidy watershedOp_tidy) ?_
  refine tidy_ite cropOpRun_tidy ?_
  refine tidy_ite (sameSize_tidy flip_x_tidy) ?_
  refine tidy_ite (sameSize_tidy flip_y_tidy) ?_
  refine tidy_ite rotateOp_tidy ?_
  refine tidy_ite trimOp_tidy ?_
  refine tidy_ite (newSize_tidy histogram_tidy) ?_
  refine tidy_ite borderOp_tidy ?_
  refine tidy_ite (sameSize_tidy (morphOp_tidy fun _ _ => erosion_tidy)) ?_
  refine tidy_ite (sameSize_tidy (morphOp_tidy fun _ _ => dilation_tidy)) ?_
  refine tidy_ite (sameSize_tidy (morphOp_tidy fun _ _ => closing_tidy)) ?_
  refine tidy_ite (sameSize_tidy (morphOp_tidy fun _ _ => opening_tidy)) ?_
  exact tidyWith_null

/-- After corner detection, a call that is tidy. -/
theorem leaves_after {m : HM (Corners Dbl)} {f : Corners Dbl → HM (Option (Buf UInt8))} {hp : Heap}
    (hm : HeapSafe m hp fun _ h' => ∃ L : List Nat, L.length ≤ 2 ∧ HeapEffect hp h' L) (hf : ∀ k, Tidy (f k)) :
    Leaves 3 (sameSize w h (m >>= f)) hp := by
  unfold sameSize
  rw [hm_assoc]
  refine HeapSafe.bind hm ?_
  rintro k h1 ⟨l, hl, e⟩
  refine tk_call (hf k) e.tk ?_ ?_
  · intro h2 t2
    exact tk_pure ⟨l, by omega, t2.eff⟩
  · intro h2 b t2
    exact tk_pure ⟨l, by omega, t2.eff, fun x => by omega⟩

theorem tidy_use {α β : Type} {ids : List Nat} (hi : ids = []) {v : CM β} {f : β → HM (Option (Buf α))} (hf : ∀ v, Tidy (f v)) : Tidy (use ids v >>= f) := by
  intro hp
  subst hi
  exact tk_use (TK.start hp) (by simp) fun v => tk_tail (hf v) (TK.start hp)

/-- Any operation: besides its result at most three blocks are left, by those that detect corners. -/
theorem apply_operation_leaves (hp : Heap) : Leaves 3 (apply_operation P M L w h op d) hp := by
  by_cases ho : op.operation ∉ cornerOps
  · exact leaves_mono (leaves_of_tidy (apply_operation_tidy ho) hp) 3
  simp only [cornerOps, List.mem_cons, List.not_mem_nil, or_false, not_not] at ho
  unfold apply_operation
  dsimp only
  rcases ho with ho | ho | ho | ho <;> rw [ho]
  · rw [if_neg (by decide), if_neg (by decide), if_neg (by decide), if_neg (by decide), if_neg (by decide), if_neg (by decide),
      if_pos rfl]
    exact leaves_after (detect_corners_tidy_partial hp) fun k => tidy_use rfl fun n => copyOf_tidy
  · rw [if_neg (by decide), if_neg (by decide), if_neg (by decide), if_neg (by decide), if_neg (by decide), if_neg (by decide),
      if_neg (by decide), if_pos rfl]
    exact leaves_after (detect_corners_tidy_partial hp) fun k => tidy_use rfl fun n => drawOnCopy_tidy
  · rw [if_neg (by decide), if_neg (by decide), if_neg (by decide), if_neg (by decide), if_neg (by decide), if_neg (by decide),
      if_neg (by decide), if_neg (by decide), if_neg (by decide), if_neg (by decide), if_neg (by decide), if_neg (by decide),
      if_neg (by decide), if_pos rfl]
    unfold newSize
    refine HeapSafe.bind (extract_document_auto_tidy_partial hp) ?_
    rintro ⟨r, s⟩ h1 ⟨l, hl, e⟩
    cases r with
    | none => exact tk_pure ⟨l, hl, e⟩
    | some b =>
      cases s with
      | none => exact tk_err
      | some s => exact tk_pure ⟨l, hl, e, fun x => by omega⟩
  · rw [if_neg (by decide), if_neg (by decide), if_neg (by decide), if_neg (by decide), if_neg (by decide), if_neg (by decide),
      if_neg (by decide), if_neg (by decide), if_neg (by decide), if_neg (by decide), if_neg (by decide), if_neg (by decide),
      if_neg (by decide), if_neg (by decide), if_pos rfl]
    unfold extractOpTo
    split
    · refine tk_use (TK.start hp) (by simp) fun ow => ?_
      refine tk_use (TK.start hp) (by simp) fun oh => ?_
      unfold givenSize
      refine HeapSafe.bind (extract_document_tidy_partial hp) ?_
      rintro r h1 ⟨l, hl, e⟩
      cases r with
      | none => exact tk_pure ⟨l, hl, e⟩
      | some b => exact tk_pure ⟨l, hl, e, fun x => by omega⟩
    · exact tk_pure ⟨[], by simp, (TK.start hp).eff⟩

/-! ### The pipeline -/

/-- The number of blocks an operation may leave besides its result. -/
def lostBy (op : PipelineOp) : Nat := if op.operation ∈ cornerOps then 3 else 0

theorem apply_operation_lost (hp : Heap) : Leaves (lostBy op) (apply_operation P M L w h op d) hp := by
  unfold lostBy
  split
  · exact apply_operation_leaves hp
  · rename_i ho
    exact leaves_of_tidy (apply_operation_tidy ho) hp

theorem runOps_leaves {apply : Apply} {k : PipelineOp → Nat} (ha : ∀ w h op d hp, Leaves (k op) (apply w h op d) hp)
    {hp : Heap} {input : Buf UInt8} (hin : input.id < hp.next) : ∀ (ops : List PipelineOp) (w h : Int) (cur : Buf UInt8)
      (lost : List Nat) (n : Nat) (c : Bool) (hh : Heap), lost.length ≤ n → (n = 0 → c = true) → TK hp hh (cur.id :: lost) c →
      HeapSafe (runOps apply input ops w h cur (some cur.id)) hh fun r h' =>
        Left (n + (ops.map k).sum) hp h' r.1
  | [], w, h, cur, lost, n, c, hh, hl, hc, t => by
    unfold runOps
    refine tk_pure ⟨lost, by simpa using hl, t.eff, fun x => t.flag (hc (by simpa using x))⟩
  | op :: rest, w, h, cur, lost, n, c, hh, hl, hc, t => by
    unfold runOps
    refine tk_use t (by simp) fun d => ?_
    refine HeapSafe.bind (ha w h op d hh) ?_
    have hne : cur.id ≠ input.id := by
      have := (t.new cur.id (by simp)).1
      omega
    rintro ⟨r, w', h'⟩ h1 ⟨l, hl', hr⟩
    cases r with
    | none =>
      dsimp only at hr ⊢
      rw [if_pos hne]
      have t1 := t.seq hr
      refine tk_free' t1 fun h2 t2 => tk_pure ⟨l ++ lost, ?_, t2.eff⟩
      simp only [List.length_append, List.map_cons, List.sum_cons]
      omega
    | some b =>
      dsimp only at hr ⊢
      rw [if_pos hne]
      obtain ⟨c1, hc1, t1⟩ : ∃ c1, (n + k op = 0 → c1 = true) ∧ TK hp h1 (b.id :: l ++ cur.id :: lost) c1 := by
        by_cases h0 : k op = 0
        · exact ⟨c, fun x => hc (by omega), t.seqOk hr.1 (hr.2 h0)⟩
        · exact ⟨false, fun x => by omega, t.seq hr.1⟩
      refine tk_free' t1 fun h2 t2 => ?_
      have := runOps_leaves ha hin rest w' h' b (l ++ lost) (n + k op) c1 h2 (by simp; omega) hc1 t2
      rw [List.map_cons, List.sum_cons, ← add_assoc]
      exact this

/-- C67, up to the blocks lost by corner detection: for every pipeline of at least one operation and every input image, nothing
is released twice or used after its release; the input image is still live afterwards (`HeapEffect`); and apart from the
result, which is a new block, at most three blocks per operation that detects corners have been left. -/
theorem execute_pipeline_leaves_partial {ops : List PipelineOp} (hne : ops ≠ []) {input : Buf UInt8} {hp : Heap} (hw : hp.WF)
    (hin : input.id ∈ hp.live) : Leaves (ops.map lostBy).sum (execute_pipeline (apply_operation P M L) w h ops input) hp := by
  unfold execute_pipeline
  cases ops with
  | nil => exact absurd rfl hne
  | cons op rest =>
    unfold runOps
    have h0 : HeapSafe (use [input.id] (asInput input.cells)) hp fun _ h' => h' = hp := by
      unfold HeapSafe use
      rw [if_pos (by simpa using hin)]
      cases asInput input.cells with
      | error e => exact ⟨fun e => (by cases e), fun e => (by cases e), fun _ _ e => by cases e⟩
      | ok a =>
        refine ⟨fun e => (by cases e), fun e => (by cases e), fun _ _ e => ?_⟩
        cases e
        rfl
    refine HeapSafe.bind h0 ?_
    rintro d h1 rfl
    refine HeapSafe.bind (apply_operation_lost h1) ?_
    rintro ⟨r, w', h'⟩ h2 ⟨l, hl, hr⟩
    cases r with
    | none =>
      refine tk_pure ⟨l, ?_, hr⟩
      simp only [List.map_cons, List.sum_cons]
      omega
    | some b =>
      dsimp only at hr ⊢
      rw [List.map_cons, List.sum_cons]
      obtain ⟨c1, hc1, t1⟩ : ∃ c1, (lostBy op = 0 → c1 = true) ∧ TK h1 h2 (b.id :: l) c1 := by
        by_cases h0 : lostBy op = 0
        · refine ⟨true, fun _ => rfl, ?_⟩
          have := (TK.start h1).seqOk hr.1 (hr.2 h0)
          rwa [List.append_nil] at this
        · exact ⟨false, fun x => absurd x h0, hr.1.tk⟩
      exact runOps_leaves (apply := apply_operation P M L) (k := lostBy) (fun w h op d hp => apply_operation_lost hp) (hw _ hin) rest w' h' b l (lostBy op) c1 h2 hl hc1 t1

/-- C67 for pipelines that do not detect corners: every intermediate image has been released, once, the input has not, and only
the result remains. -/
theorem execute_pipeline_tidy {ops : List PipelineOp} (hne : ops ≠ []) (hc : ∀ op ∈ ops, op.operation ∉ cornerOps)
    {input : Buf UInt8} {hp : Heap} (hw : hp.WF) (hin : input.id ∈ hp.live) :
    HeapSafe (execute_pipeline (apply_operation P M L) w h ops input) hp fun r h' => CallEffect hp h' r.1 := by
  have h0 : (ops.map lostBy).sum = 0 := by
    rw [List.sum_eq_zero_iff]
    intro x hx
    obtain ⟨op, ho, rfl⟩ := List.mem_map.1 hx
    exact if_neg (hc op ho)
  obtain ⟨e1, e2, e3⟩ := execute_pipeline_leaves_partial (P := P) (M := M) (L := L) (w := w) (h := h) hne hw hin
  refine ⟨e1, e2, fun r h' e => ?_⟩
  obtain ⟨l, hl, q⟩ := e3 r h' e
  have : l = [] := List.length_eq_zero_iff.1 (by omega)
  subst this
  unfold CallEffect
  cases hr : r.1 with
  | none => rw [hr] at q; exact q
  | some b => rw [hr] at q; exact ⟨q.1, q.2 h0⟩

/-- Without operations the result is the input itself. -/
theorem execute_pipeline_empty {input : Buf UInt8} {apply : Apply} (hp : Heap) :
    execute_pipeline apply w h [] input hp = .ok ((some input, w, h), hp) := rfl

/-- C67 is false with corner detection: the operation `detect_corners` leaves two blocks behind its result whenever it returns. -/
theorem detect_op_leaks {w h : Nat} (hex : ExpOk M.ex) (ha : AtanRange M.at2) (im : Img P w h 4 d) (h32 : w * h * 4 < 4294967296)
    (ho : op.operation = "detect_corners".toList) {hp : Heap} (hf : ∀ i, hp.fails i = false) {r : OpResult} {h' : Heap}
    (e : apply_operation P M L w h op d hp = .ok (r, h')) :
    ∃ i j, h'.live.Perm ((r.1.map Buf.id).toList ++ i :: j :: hp.live) := by
  have ea : apply_operation P M L w h op d = sameSize w h (detectOp P M w h d) := by simp [apply_operation, ho]
  rw [ea] at e
  unfold sameSize detectOp at e
  rw [hm_assoc, hm_bind] at e
  cases e1 : fcv_detect_corners P M.ex M.at2 M.asn (some d) w h hp with
  | error x =>
    rw [e1] at e
    cases e
  | ok v =>
    obtain ⟨k, h1⟩ := v
    rw [e1] at e
    obtain ⟨i, j, hl⟩ := detect_corners_leaks P hex ha M.asn hf im h32 e1
    have ht : TidyWith (sameSize w h (use [] (byteCount P w h) >>= fun n => copyOf n d)) :=
      sameSize_tidy (tidy_use rfl fun n => copyOf_tidy)
    obtain ⟨_, _, q⟩ := ht h1
    have q : CallEffect h1 h' r.1 := q r h' e
    refine ⟨i, j, ?_⟩
    cases hr : r.1 with
    | none =>
      rw [hr] at q
      exact q.1.trans hl
    | some b =>
      rw [hr] at q
      exact q.1.1.trans ((hl.cons b.id))

/-- Two operations on a 2×1 image in block 0: the flipped image (block 1) is released, the input is not, the result is block 2. -/
example : (match execute_pipeline (apply_operation Plat.lp64 ⟨fun _ => 0, fun _ _ => .fin 0, fun _ => .fin 0, fun x => x⟩
      ⟨fun _ => .fin 0, fun _ => [], 9223372036854775807⟩) 2 1
      [{ operation := "flip_x".toList }, { operation := "flip_y".toList }] ⟨0, [1, 2, 3, 4, 5, 6, 7, 8].map some⟩ ⟨1, [0], fun _ => false⟩ with
    | .ok ((r, _), h') => some (r.map Buf.id, h'.live)
    | .error _ => none) = some (some 2, [2, 0]) := by decide +kernel

end FlatCV.Props
