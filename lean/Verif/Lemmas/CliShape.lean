/-
The size of the images that the library functions return, whenever they return one.
-/
import Verif.Lemmas.Shape
import Verif.Model.Cli

namespace FlatCV.Model
open FlatCV

variable {P : Plat} {w h : Nat} {d : List UInt8}

theorem le_of_guard {a b n : Nat} (hb : 0 < b) (h : ¬ a > n / b) : a * b ≤ n := (Nat.le_div_iff_mul_le hb).1 (not_lt.1 h)

/-- The stores `k, k+1, k+2, k+3` with 32-bit indices. -/
theorem fourU32 {k : Nat} {v1 v2 v3 v4 : UInt8} : Inits (fun i => i < 4294967296 ∧ ∃ c, c < 4 ∧ i = k + c)
    (fun s => do
      let s ← wr s k v1
      let s ← wr s (u32 (k + 1)) v2
      let s ← wr s (u32 (k + 2)) v3
      wr s (u32 (k + 3)) v4) := by
  refine Inits.four.weaken ?_
  rintro i ⟨hi, c, hc, e⟩
  have : c = 0 ∨ c = 1 ∨ c = 2 ∨ c = 3 := by omega
  unfold u32
  rcases this with e' | e' | e' | e' <;> subst e' <;> omega

theorem s2m_shaped {m : List UInt8} : Shaped (w * h * 4) (fcv_single_to_multichannel P w h (some m)) := by
  unfold fcv_single_to_multichannel
  dsimp only
  refine Shaped.ite (fun _ => Shaped.null) fun h0 => Shaped.ite (fun _ => Shaped.null) fun h1 => ?_
  have g1 := le_of_guard (by omega) h1
  rw [P.sz_eq' g1]
  refine Shaped.ite (fun _ => Shaped.null) fun h2 => ?_
  have g2 := le_of_guard (by omega) h2
  rw [P.sz_eq' g2]
  refine Shaped.allocFill (Inits.whole (by simp) (Inits.forN (W := fun k i => ∃ c, c < 4 ∧ i = k * 4 + c) fun k hk => ?_) ?_)
  · have e : ∀ c, c < 4 → P.sz (k * 4 + c) = k * 4 + c := fun c hc => P.sz_eq' (by
      have : k * 4 + 4 ≤ w * h * 4 := by omega
      omega)
    have e0 := e 0 (by omega)
    rw [Nat.add_zero] at e0
    rw [e0, e 1 (by omega), e 2 (by omega), e 3 (by omega)]
    refine Inits.pre fun v1 => ?_
    refine ((Inits.wr _ _).bind (Inits.pre fun v2 => (Inits.wr _ _).bind (Inits.pre fun v3 => (Inits.wr _ _).bind (Inits.wr _ _)))).weaken ?_
    rintro i ⟨c, hc, e⟩
    have : c = 0 ∨ c = 1 ∨ c = 2 ∨ c = 3 := by omega
    rcases this with e' | e' | e' | e' <;> subst e' <;> omega
  · intro _ i hi
    exact Or.inr ⟨i / 4, by omega, i % 4, by omega, by omega⟩

theorem otsu_shaped {dbl : Bool} : Shaped (w * h * 4) (fcv_otsu_threshold_rgba P w h dbl (some d)) := by
  unfold fcv_otsu_threshold_rgba
  dsimp only
  refine Shaped.ite (fun _ => Shaped.null) fun _ => Shaped.ite (fun _ => Shaped.null) fun _ => ?_
  exact Shaped.callThenFree fun l => Shaped.seq fun m => s2m_shaped

theorem shaped_last {n : Nat} {m : HM (Option (Buf UInt8))} {f : HM Unit} (hm : Shaped n m) :
    Shaped n (m >>= fun r => f >>= fun _ => pure r) := by
  intro hp
  refine HPart.bind (hm hp) ?_
  intro r h' hr
  exact HPart.seq fun _ _ => HPart.pure hr

theorem bw_shaped {ex : ℚ → ℚ} {dbl : Bool} : Shaped (w * h * 4) (fcv_bw_smart P ex w h dbl (some d)) := by
  unfold fcv_bw_smart
  dsimp only
  refine Shaped.ite (fun _ => Shaped.null) fun _ => Shaped.seq fun r => ?_
  cases r with
  | none => exact Shaped.null
  | some gray =>
    refine Shaped.seq fun _ => Shaped.seq fun _ => Shaped.seq fun r => ?_
    cases r with
    | none => exact Shaped.seq fun _ => Shaped.null
    | some blurred =>
      refine Shaped.ite (fun _ => Shaped.seq fun _ => Shaped.seq fun _ => Shaped.null) fun _ => ?_
      refine Shaped.ite (fun _ => Shaped.seq fun _ => Shaped.seq fun _ => Shaped.null) fun _ => Shaped.seq fun r => ?_
      cases r with
      | none => exact Shaped.seq fun _ => Shaped.seq fun _ => Shaped.null
      | some high => exact Shaped.seq fun _ => Shaped.seq fun _ => Shaped.seq fun _ => Shaped.seq fun _ => shaped_last otsu_shaped

theorem backToRGBA_shaped {m : HM (Option (Buf UInt8))} {w h : Int} :
    Shaped (u32OfInt w * u32OfInt h * 4) (backToRGBA P w h m) := by
  unfold backToRGBA
  refine Shaped.seq fun r => ?_
  cases r with
  | none => exact Shaped.null
  | some g => exact Shaped.seq fun _ => shaped_last s2m_shaped

theorem morph_shaped {w h : Int} {op : PipelineOp} {f : List UInt8 → Int → HM (Option (Buf UInt8))} :
    Shaped (u32OfInt w * u32OfInt h * 4) (morphOp P w h op d f) := by
  unfold morphOp
  exact Shaped.ite (fun _ => backToRGBA_shaped) fun _ => Shaped.null

theorem grayscale_shaped : Shaped (w * h * 4) (fcv_grayscale P w h (some d)) := by
  unfold fcv_grayscale
  dsimp only
  refine Shaped.ite (fun _ => Shaped.null) fun h0 => Shaped.ite (fun _ => Shaped.null) fun h1 => ?_
  have g1 := le_of_guard (by omega) h1
  rw [P.sz_eq' g1]
  refine Shaped.ite (fun _ => Shaped.null) fun h2 => ?_
  have g2 := le_of_guard (by omega) h2
  rw [P.sz_eq' g2]
  refine Shaped.allocFill (Inits.whole (by simp) (Inits.forN fun k hk => Inits.pre fun g => fourU32) ?_)
  intro hn i hi
  refine Or.inr ⟨i / 4, ?_, by omega, i % 4, by omega, ?_⟩
  · unfold u32
    omega
  · unfold u32
    omega

theorem blurStore_inits {k : Nat} {a : BlurAcc} : Inits (fun i => i < 4294967296 ∧ ∃ c, c < 4 ∧ i = k + c) (fun s => blurStore s k a) := by
  unfold blurStore
  refine (Inits.pre fun q => Inits.pre fun r => (Inits.wr _ _).bind (Inits.pre fun q => Inits.pre fun g => (Inits.wr _ _).bind
    (Inits.pre fun q => Inits.pre fun b => (Inits.wr _ _).bind (Inits.wr _ _)))).weaken ?_
  rintro i ⟨hi, c, hc, e⟩
  have : c = 0 ∨ c = 1 ∨ c = 2 ∨ c = 3 := by omega
  unfold u32
  rcases this with e' | e' | e' | e' <;> subst e' <;> omega

theorem idxU32 {w h y x : Nat} (hn : w * h * 4 ≤ 4294967296) (hy : y < h) (hx : x < w) :
    u32 (u32 (y * w + x) * 4) = (y * w + x) * 4 ∧ (y * w + x) * 4 + 4 ≤ w * h * 4 := by
  have h1 : (y + 1) * w ≤ h * w := Nat.mul_le_mul_right w hy
  rw [Nat.mul_comm h w, Nat.add_mul] at h1
  unfold u32
  omega

theorem blur_shaped {ex : ℚ → ℚ} {radius : Dbl} : Shaped (w * h * 4) (fcv_apply_gaussian_blur P ex w h radius (some d)) := by
  unfold fcv_apply_gaussian_blur
  dsimp only
  refine Shaped.ite (fun _ => Shaped.null) fun h0 => ?_
  cases radius with
  | nan => exact Shaped.null
  | inf n => exact Shaped.null
  | fin radius =>
    dsimp only
    refine Shaped.ite (fun _ => Shaped.null) fun _ => Shaped.ite (fun _ => Shaped.null) fun h1 => ?_
    have g1 := le_of_guard (by omega) h1
    rw [P.sz_eq' g1]
    refine Shaped.ite (fun _ => Shaped.null) fun h2 => ?_
    have g2 := le_of_guard (by omega) h2
    rw [P.sz_eq' g2]
    refine Shaped.ite (fun _ => ?_) fun _ => Shaped.ite (fun _ => Shaped.null) fun _ => ?_
    · exact Shaped.allocFill (Inits.whole (by simp) (Inits.memcpyIn 0 d 0 _) fun _ i hi => Or.inr (by omega))
    · refine Shaped.malloc Shaped.null fun i => Shaped.seq fun ks => Shaped.seq fun r => ?_
      cases r with
      | none => exact Shaped.seq fun _ => Shaped.null
      | some kernel =>
        refine Shaped.seq fun ker => ?_
        refine Shaped.use (R := Whole (w * h * 4)) ?_ fun rows hrows => Shaped.seq fun r => ?_
        · refine Inits.whole (by simp) (Inits.forU32 fun y hy => Inits.forU32 fun x hx => Inits.pre fun a => blurStore_inits) ?_
          intro hn i hi
          obtain ⟨y, hy, x, hx, c, hc, e⟩ := pixel_of_cell hi
          exact Or.inr ⟨y, hy, x, hx, by omega, c, hc, by rw [(idxU32 hn hy hx).1]; exact e⟩
        · cases r with
          | none => exact Shaped.seq fun _ => Shaped.seq fun _ => Shaped.null
          | some temp =>
            refine Shaped.use (R := Whole (w * h * 4)) ?_ fun out hout => Shaped.seq fun _ => Shaped.seq fun _ => Shaped.ret hout
            refine Inits.whole hrows.1 (Inits.forU32 fun x hx => Inits.forU32 fun y hy => Inits.pre fun a => blurStore_inits) ?_
            intro hn i hi
            obtain ⟨y, hy, x, hx, c, hc, e⟩ := pixel_of_cell hi
            exact Or.inr ⟨x, hx, y, hy, by omega, c, hc, by rw [(idxU32 hn hy hx).1]; exact e⟩

theorem crop_shaped {ch x y nw nh : Nat} (hch : 0 < ch) : Shaped (nw * nh * ch) (fcv_crop P w h ch (some d) x y nw nh) := by
  unfold fcv_crop
  dsimp only
  refine Shaped.ite (fun _ => Shaped.null) fun h0 => Shaped.ite (fun _ => Shaped.null) fun _ => Shaped.ite (fun _ => Shaped.null) fun _ =>
    Shaped.ite (fun _ => Shaped.null) fun h1 => ?_
  have g1 := le_of_guard (by omega) h1
  rw [P.sz_eq' g1]
  refine Shaped.ite (fun _ => Shaped.null) fun h2 => ?_
  have g2 := le_of_guard hch h2
  rw [P.sz_eq' g2]
  refine Shaped.allocFill (Inits.whole (by simp) (Inits.forN fun k hk => Inits.memcpyIn _ d _ _) ?_)
  intro _ i hi
  have hrow : nw * ch ≤ nw * nh * ch := by
    rw [Nat.mul_right_comm]
    exact Nat.le_mul_of_pos_right _ (by omega)
  have hp : 0 < nw * ch := Nat.mul_pos (by omega) hch
  have e1 : P.sz (nw * ch) = nw * ch := P.sz_eq' (by omega)
  rw [e1]
  have hk : i / (nw * ch) < nh := by
    rw [Nat.div_lt_iff_lt_mul hp, Nat.mul_comm nh, Nat.mul_right_comm]
    exact hi
  have hd := Nat.div_add_mod i (nw * ch)
  have hm := Nat.mod_lt i hp
  rw [Nat.mul_comm] at hd
  refine Or.inr ⟨i / (nw * ch), hk, ?_⟩
  rw [P.sz_eq' (by omega)]
  omega

theorem watershed_shaped {ms : Option (List (Dbl × Dbl))} {n : Nat} {bd : Bool} :
    Shaped (w * h * 4) (fcv_watershed_segmentation P w h (some d) ms n bd) := by
  unfold fcv_watershed_segmentation
  cases ms with
  | none => exact Shaped.null
  | some ms =>
    dsimp only
    refine Shaped.ite (fun _ => Shaped.null) fun _ => Shaped.ite (fun _ => Shaped.null) fun h0 => Shaped.seq fun bad => ?_
    refine Shaped.ite (fun _ => Shaped.null) fun _ => Shaped.ite (fun _ => Shaped.null) fun h1 => ?_
    have g1 := le_of_guard (by omega) h1
    rw [P.sz_eq' g1]
    refine Shaped.ite (fun _ => Shaped.null) fun h2 => ?_
    have g2 := le_of_guard (by omega) h2
    rw [P.sz_eq' g2]
    refine Shaped.malloc Shaped.null fun i => Shaped.seq fun r => ?_
    cases r with
    | none => exact Shaped.seq fun _ => Shaped.null
    | some labels =>
      refine Shaped.seq fun lab => Shaped.ite (fun _ => Shaped.seq fun _ => Shaped.seq fun _ => Shaped.null) fun _ => Shaped.seq fun r => ?_
      cases r with
      | none => exact Shaped.seq fun _ => Shaped.seq fun _ => Shaped.null
      | some q =>
        refine Shaped.seq fun r => ?_
        cases r with
        | none => exact Shaped.seq fun _ => Shaped.seq fun _ => Shaped.seq fun _ => Shaped.null
        | some items =>
          refine Shaped.seq fun v => Shaped.seq fun _ => Shaped.seq fun _ => ?_
          refine Shaped.use (R := Whole (w * h * 4)) ?_ fun c hc => Shaped.seq fun _ => Shaped.ret hc
          refine Inits.whole (by simp) (Inits.forU32 fun k hk => ?_) (S := fun i => ∃ k, k < w * h ∧
            (i < 4294967296 ∧ ∃ c, c < 4 ∧ i = u32 (k * 4) + c)) ?_
          · unfold paintLabel
            exact Inits.pre fun l => Inits.pre fun v => fourU32
          · intro hn i hi
            refine Or.inr ⟨i / 4, by omega, by omega, i % 4, by omega, ?_⟩
            unfold u32
            omega

/-- If the call returns a block, it has reported a size of at least one pixel and the block has this size. -/
def ShapedDims (m : HM (Option (Buf UInt8) × Option (Nat × Nat))) : Prop := ∀ hp, HPart m hp fun r _ => ∀ b, r.1 = some b →
  ∃ ow oh, r.2 = some (ow, oh) ∧ 0 < ow ∧ 0 < oh ∧ IsU32 ow ∧ IsU32 oh ∧ Whole (ow * oh * 4) b.cells

theorem ShapedDims.null {v : Option (Nat × Nat)} : ShapedDims (pure (none, v)) := fun _ => HPart.pure fun _ e => by cases e

theorem ShapedDims.ite {p : Prop} [Decidable p] {a b : HM (Option (Buf UInt8) × Option (Nat × Nat))} (ha : p → ShapedDims a)
    (hb : ¬ p → ShapedDims b) : ShapedDims (if p then a else b) := by
  split
  · exact ha ‹_›
  · exact hb ‹_›

theorem ShapedDims.use {β : Type} {ids : List Nat} {c : CM β} {R : β → Prop} {f : β → HM (Option (Buf UInt8) × Option (Nat × Nat))}
    (hc : Part c R) (h : ∀ b, R b → ShapedDims (f b)) : ShapedDims (FlatCV.use ids c >>= f) := by
  intro hp
  refine HPart.bind (HPart.use hc) ?_
  rintro b h' ⟨hb, _⟩
  exact h b hb h'

theorem castU32_part {q : ℚ} : Part (castU32 q) IsU32 := by
  unfold castU32
  refine Part.bind (P := fun z => 0 ≤ z ∧ z ≤ 4294967295) ?_ ?_
  · intro z e
    unfold castInt at e
    split at e
    · cases e
      assumption
    · cases e
  · intro z hz
    refine Part.pure ?_
    unfold IsU32
    omega

theorem dbl_toU32_part {x : Dbl} : Part x.toU32 IsU32 := by
  unfold Dbl.toU32
  cases x with
  | fin q => exact castU32_part
  | nan => exact Part.error
  | inf n => exact Part.error

theorem newBlock {n : Nat} {hp : Heap} : HPart (malloc UInt8 n) hp fun r _ => ∀ b, r = some b → b.cells = List.replicate n none := by
  intro r h' e b hb
  subst hb
  unfold malloc at e
  split at e <;> cases e
  rfl

theorem zeroBlock {n : Nat} {hp : Heap} : HPart (calloc n (0 : UInt8)) hp fun r _ => ∀ b, r = some b → b.cells = List.replicate n (some 0) := by
  intro r h' e b hb
  subst hb
  unfold calloc at e
  split at e <;> cases e
  rfl

theorem resizeLoop_inits {ow oh : Nat} {rx ry : ℚ} :
    Inits (fun i => ∃ oy, oy < oh ∧ ∃ ox, ox < ow ∧ i < 4294967296 ∧ ∃ c, c < 4 ∧ i = u32 (u32 (oy * ow + ox) * 4) + c)
      (fun s => resizeLoop w h ow oh rx ry d s) := by
  unfold resizeLoop
  refine Inits.forU32 fun oy hy => Inits.forU32 fun ox hx => ?_
  refine Inits.pre fun v => ?_
  exact fourU32

theorem resize_shaped {x y : Dbl} : ShapedDims (fcv_resize P w h x y (some d)) := by
  unfold fcv_resize
  dsimp only
  refine ShapedDims.ite (fun _ => ShapedDims.null) fun h0 => ?_
  split
  · rename_i rx ry
    refine ShapedDims.ite (fun _ => ShapedDims.null) fun _ => ShapedDims.ite (fun _ => ShapedDims.null) fun _ => ?_
    refine ShapedDims.use dbl_toU32_part fun ow uw => ShapedDims.use dbl_toU32_part fun oh uh => ?_
    refine ShapedDims.ite (fun _ => ShapedDims.null) fun hz => ShapedDims.ite (fun _ => ShapedDims.null) fun h1 => ?_
    have g1 := le_of_guard (by omega) h1
    rw [P.sz_eq' g1]
    refine ShapedDims.ite (fun _ => ShapedDims.null) fun h2 => ?_
    have g2 := le_of_guard (by omega) h2
    rw [P.sz_eq' g2]
    intro hp
    refine HPart.bind newBlock ?_
    intro r h' hr
    cases r with
    | none => exact HPart.pure fun _ e => by cases e
    | some b =>
      refine HPart.bind (HPart.use (Q := Whole (ow * oh * 4)) ?_) ?_
      · rw [hr b rfl]
        refine Inits.whole (by simp) resizeLoop_inits ?_
        intro hn i hi
        obtain ⟨y, hy, x, hx, c, hc, e⟩ := pixel_of_cell hi
        exact Or.inr ⟨y, hy, x, hx, by omega, c, hc, by rw [(idxU32 hn hy hx).1]; exact e⟩
      · rintro c h'' ⟨hc, _⟩
        refine HPart.pure fun b' e => ?_
        cases e
        exact ⟨ow, oh, rfl, by omega, by omega, uw, uh, hc⟩
  · exact ShapedDims.null

theorem borderPixel_inits {k : Nat} {col : UInt8 × UInt8 × UInt8} :
    Inits (fun i => i < 4294967296 ∧ ∃ c, c < 4 ∧ i = k + c) (fun s => borderPixel 4 col k s) := by
  unfold borderPixel
  simp only [show ¬ (4 : Nat) = 1 by decide, show (4 : Nat) ≥ 3 by decide, if_true, if_false]
  exact fourU32

theorem border_shaped {hex : Option (List Char)} {bw : Nat} (iw : IsU32 w) (ih : IsU32 h) : ShapedDims (fcv_add_border P w h 4 hex bw (some d)) := by
  unfold fcv_add_border
  cases hex with
  | none => exact ShapedDims.null
  | some hex =>
    dsimp only
    refine ShapedDims.ite (fun _ => ShapedDims.null) fun _ => ShapedDims.ite (fun _ => ShapedDims.null) fun h0 =>
      ShapedDims.ite (fun _ => ShapedDims.null) fun hb => ?_
    generalize hw : u32 (w + u32 (2 * bw)) = ow
    generalize hh : u32 (h + u32 (2 * bw)) = oh
    have uw : IsU32 ow := by rw [← hw]; exact u32_lt _
    have uh : IsU32 oh := by rw [← hh]; exact u32_lt _
    refine ShapedDims.ite (fun _ => ShapedDims.null) fun h1 => ?_
    have pw : 0 < ow ∧ 0 < oh := by
      unfold IsU32 at iw ih
      rw [u32sub_eq (by omega) (by omega), u32sub_eq (by omega) (by omega)] at hb
      rw [← hw, ← hh]
      unfold u32
      omega
    have g1 := le_of_guard (by omega) h1
    rw [P.sz_eq' g1]
    refine ShapedDims.ite (fun _ => ShapedDims.null) fun h2 => ?_
    have g2 := le_of_guard (by omega) h2
    rw [P.sz_eq' g2]
    intro hp
    refine HPart.bind ((Shaped.allocFill (n := ow * oh * 4) ?_) hp) ?_
    · refine Inits.whole (by simp) ((Inits.forN fun y hy => Inits.forN fun x hx => borderPixel_inits).bind
        (Inits.forN fun y hy => Inits.forN fun x hx => Inits.forN fun c hc => Inits.pre fun v => Inits.wr _ v)) ?_
      intro hn i hi
      obtain ⟨y, hy, x, hx, c, hc, e⟩ := pixel_of_cell hi
      have := idxU32 hn hy hx
      refine Or.inr (Or.inl ⟨y, hy, x, hx, by omega, c, hc, ?_⟩)
      rw [show u32 (u32 (u32 (y * ow) + x) * 4) = (y * ow + x) * 4 from ?_]
      · exact e
      · rw [← this.1]
        unfold u32
        omega
    · rintro r h' hr
      refine HPart.pure fun b e => ?_
      exact ⟨ow, oh, rfl, pw.1, pw.2, uw, uh, hr b e⟩

theorem histogram_shaped : ShapedDims (fcv_generate_histogram P w h 4 (some d)) := by
  unfold fcv_generate_histogram
  dsimp only
  refine ShapedDims.ite (fun _ => ShapedDims.null) fun _ => ShapedDims.ite (fun _ => ShapedDims.null) fun _ =>
    ShapedDims.ite (fun _ => ShapedDims.null) fun _ => ?_
  have hg := P.mod_ge
  obtain ⟨n, hn⟩ : ∃ n, n = 256 * 200 * 4 := ⟨_, rfl⟩
  have e : P.sz (P.sz (256 * 200) * 4) = n := by
    have e1 : P.sz (256 * 200) = 256 * 200 := P.sz_eq (by omega)
    rw [e1, P.sz_eq (by omega), hn]
  rw [e]
  intro hp
  refine HPart.bind zeroBlock ?_
  intro r h' hr
  cases r with
  | none => exact HPart.pure fun _ e => by cases e
  | some b =>
    refine HPart.bind (HPart.use (Q := Whole n) ?_) ?_
    · rw [hr b rfl]
      have bar : ∀ x y r g b, Inits (fun _ => False) (fun s => barPixel x y r g b s) := fun x y r g b =>
        Inits.four.weaken fun _ h => h.elim
      have loop : ∀ {n : Nat} {body : Nat → Cells UInt8 → CM (Cells UInt8)}, (∀ k, k < n → Inits (fun _ => False) (body k)) →
          Inits (fun _ => False) (fun s => forN n s body) := fun h => (Inits.forN h).weaken fun _ h => h.elim
      refine Inits.whole (S := fun _ => False) (by simp) ?_ ?_
      · unfold fillHistogram
        refine (Inits.bind (S := fun _ => False) (T := fun _ => False) (loop fun k _ => (Inits.wr _ _).weaken fun _ h => h.elim)
          (Inits.pre fun g => Inits.ite (fun _ => ?_) fun _ => ?_)).weaken fun _ h => h.elim
        · refine Inits.pre fun hist => Inits.pre fun m => Inits.ite (fun _ => Inits.pure) fun _ => ?_
          exact loop fun x _ => Inits.pre fun bh => loop fun y _ => bar _ _ _ _ _
        · refine Inits.pre fun v => Inits.pre fun m => Inits.ite (fun _ => Inits.pure) fun _ => ?_
          exact loop fun x _ => Inits.pre fun bh => Inits.pre fun bg => Inits.pre fun bb => loop fun y _ => bar _ _ _ _ _
      · intro _ i hi
        exact Or.inl ⟨0, by simp [hi]⟩
    · rintro c h'' ⟨hc, _⟩
      refine HPart.pure fun b' e => ?_
      cases e
      exact ⟨256, 200, rfl, by decide, by decide, by decide, by decide, hn ▸ hc⟩

theorem warpPixel_inits {iw ih ow : Int} {m : Mat Dbl} {y x : Nat} : Inits (fun _ => False) (fun s => warpPixel iw ih d ow m y x s) := by
  unfold warpPixel
  refine Inits.ite (fun _ => Inits.pure) fun _ => ?_
  refine Inits.pre fun _ => Inits.pre fun _ => Inits.pre fun _ => Inits.pre fun _ => Inits.pre fun _ => Inits.pre fun _ => Inits.pre fun _ =>
    Inits.pre fun _ => Inits.ite (fun _ => ?_) fun _ => Inits.pure
  refine Inits.pre fun _ => Inits.pre fun _ => Inits.pre fun _ => Inits.pre fun _ => Inits.pre fun _ => Inits.pre fun _ => ?_
  exact (Inits.forN fun c _ => Inits.pre fun v => Inits.pre fun o => Inits.pre fun k =>
    (Inits.wrZ k v).weaken (T := fun _ => False) fun _ h => h.elim).weaken fun _ h => h.elim

/-- The warped image is returned only for positive sizes. -/
theorem apply_shaped {iw ih ow oh : Int} {m : Option (Mat Dbl)} (hp : Heap) :
    HPart (fcv_apply_matrix_3x3 P iw ih (some d) ow oh m) hp fun r _ => ∀ b, r.1 = some b →
      0 < ow ∧ 0 < oh ∧ Whole (ow.toNat * oh.toNat * 4) b.cells := by
  unfold fcv_apply_matrix_3x3
  cases m with
  | none => exact HPart.pure fun _ e => by cases e
  | some m =>
    dsimp only
    split
    · exact HPart.pure fun _ e => by cases e
    split
    · exact HPart.pure fun _ e => by cases e
    rename_i h0 h1
    have g1 := le_of_guard (by omega) h1
    rw [P.sz_eq' g1]
    split
    · exact HPart.pure fun _ e => by cases e
    rename_i h2
    have g2 := le_of_guard (by omega) h2
    rw [P.sz_eq' g2]
    refine HPart.bind zeroBlock ?_
    intro r h' hr
    cases r with
    | none => exact HPart.pure fun _ e => by cases e
    | some b =>
      refine HPart.bind (HPart.use (Q := Whole (ow.toNat * oh.toNat * 4)) ?_) ?_
      · rw [hr b rfl]
        refine Inits.whole (by simp) (Inits.forN fun y _ => Inits.forN fun x _ => warpPixel_inits) ?_
        intro _ i hi
        exact Or.inl ⟨0, by simp [hi]⟩
      · rintro c h'' ⟨hc, _⟩
        refine HPart.pure fun b' e => ?_
        cases e
        exact ⟨by omega, by omega, hc⟩

/-! ### Drawing -/

/-- If `f` finishes, the number of bytes is the same. -/
def KeepsLen (f : List UInt8 → CM (List UInt8)) : Prop := ∀ d, Part (f d) fun e => e.length = d.length

theorem KeepsLen.id : KeepsLen (fun d => pure d) := fun _ => Part.pure rfl

theorem KeepsLen.wrIn (k : Nat) (v : UInt8) : KeepsLen (fun d => wrIn d k v) := by
  intro d e he
  unfold FlatCV.wrIn at he
  dsimp only at he
  split at he
  · cases he
    simp
  · cases he

theorem KeepsLen.bind {f g : List UInt8 → CM (List UInt8)} (hf : KeepsLen f) (hg : KeepsLen g) : KeepsLen (fun d => f d >>= g) :=
  fun d => Part.bind (hf d) fun e he => (hg e).mono fun _ h => h.trans he

theorem KeepsLen.pre {β : Type} {m : CM β} {k : β → List UInt8 → CM (List UInt8)} (h : ∀ b, KeepsLen (k b)) :
    KeepsLen (fun d => m >>= fun b => k b d) := fun d => Part.bind (Part.trivial m) fun b _ => h b d

theorem KeepsLen.ite {p : Prop} [Decidable p] {f g : List UInt8 → CM (List UInt8)} (hf : KeepsLen f) (hg : KeepsLen g) :
    KeepsLen (fun d => if p then f d else g d) := by
  intro d
  split
  · exact hf d
  · exact hg d

theorem KeepsLen.forN {n : Nat} {body : Nat → List UInt8 → CM (List UInt8)} (h : ∀ k, KeepsLen (body k)) :
    KeepsLen (fun d => forN n d body) := by
  intro d
  refine (Part.forN (fun _ e => e.length = d.length) rfl ?_).mono fun _ h => h
  intro k _ e he
  exact (h k e).mono fun _ h' => h'.trans he

theorem Part.whileFuel {σ : Type} {fuel : Nat} {s : σ} {step : σ → CM (σ × Bool)} (I : σ → Prop) (h0 : I s)
    (hstep : ∀ s, I s → Part (step s) fun r => I r.1) : Part (whileFuel fuel s step) I := by
  induction fuel generalizing s with
  | zero => intro r e; cases e
  | succ n ih =>
    unfold FlatCV.whileFuel
    refine Part.bind (hstep s h0) ?_
    rintro ⟨t, stop⟩ ht
    cases stop
    · exact ih ht
    · exact Part.pure ht

theorem set_pixel_len {ch : Nat} {px py : Int} {col : UInt8 × UInt8 × UInt8} :
    KeepsLen (fun d => fcv_set_circle_pixel P w h ch px py col d) := by
  unfold fcv_set_circle_pixel
  refine KeepsLen.ite .id (KeepsLen.ite (KeepsLen.ite ?_ (KeepsLen.ite ?_ .id)) .id)
  · exact KeepsLen.pre fun v => .wrIn _ _
  · exact (KeepsLen.wrIn _ _).bind ((KeepsLen.wrIn _ _).bind ((KeepsLen.wrIn _ _).bind (KeepsLen.ite (.wrIn _ _) .id)))

theorem circle_points_len {ch : Nat} {cx cy x y : Int} {col : UInt8 × UInt8 × UInt8} :
    KeepsLen (fun d => fcv_draw_circle_points P w h ch cx cy col x y d) := by
  unfold fcv_draw_circle_points
  have s := @set_pixel_len P w h
  refine KeepsLen.pre fun _ => KeepsLen.pre fun _ => s.bind ?_
  refine KeepsLen.pre fun _ => KeepsLen.pre fun _ => s.bind ?_
  refine KeepsLen.pre fun _ => KeepsLen.pre fun _ => s.bind ?_
  refine KeepsLen.pre fun _ => KeepsLen.pre fun _ => s.bind ?_
  refine KeepsLen.pre fun _ => KeepsLen.pre fun _ => s.bind ?_
  refine KeepsLen.pre fun _ => KeepsLen.pre fun _ => s.bind ?_
  refine KeepsLen.pre fun _ => KeepsLen.pre fun _ => s.bind ?_
  exact KeepsLen.pre fun _ => KeepsLen.pre fun _ => s

theorem fillLine_len {ch : Nat} {cx cy a v : Int} {col : UInt8 × UInt8 × UInt8} :
    KeepsLen (fun d => fillLine P w h ch col cx cy a v d) := by
  unfold fillLine
  refine KeepsLen.pre fun _ => KeepsLen.pre fun _ => KeepsLen.forN fun k => ?_
  refine KeepsLen.pre fun _ => set_pixel_len.bind (KeepsLen.pre fun _ => set_pixel_len.bind (KeepsLen.pre fun _ => .id))

theorem disk_lines_len {ch : Nat} {cx cy x y : Int} {col : UInt8 × UInt8 × UInt8} :
    KeepsLen (fun d => fcv_fill_disk_lines P w h ch cx cy col x y d) := by
  unfold fcv_fill_disk_lines
  exact fillLine_len.bind (KeepsLen.ite fillLine_len .id)

theorem bresenham_len {r : Int} {stamp : Int → Int → List UInt8 → CM (List UInt8)} (hs : ∀ x y, KeepsLen (stamp x y)) :
    KeepsLen (fun d => bresenham r stamp d) := by
  unfold bresenham
  refine KeepsLen.pre fun _ => KeepsLen.pre fun _ => (hs _ _).bind ?_
  intro d
  refine Part.bind (P := fun v : Int × Int × Int × List UInt8 => v.2.2.2.length = d.length) ?_ fun v hv => Part.pure hv
  refine Part.whileFuel (fun v : Int × Int × Int × List UInt8 => v.2.2.2.length = d.length) rfl ?_
  rintro ⟨x, y, e, d'⟩ hd
  dsimp only
  split
  · refine Part.bind (Part.trivial _) ?_
    rintro ⟨x, y, e⟩ _
    refine Part.bind (hs x y d') fun d'' hd' => Part.pure ?_
    exact hd'.trans hd
  · exact Part.pure hd

theorem drawShape_len {ch : Nat} {hex : Option (List Char)} {r cx cy : Dbl}
    {stamp : Int → Int → UInt8 × UInt8 × UInt8 → Int → Int → List UInt8 → CM (List UInt8)}
    (hs : ∀ cx cy col x y, KeepsLen (stamp cx cy col x y)) : KeepsLen (fun d => drawShape w h ch hex r cx cy stamp d) := by
  intro d
  unfold drawShape
  cases hex with
  | none => exact Part.pure rfl
  | some hex =>
    dsimp only
    split
    · exact Part.pure rfl
    split
    · split
      · exact Part.pure rfl
      split
      · exact Part.pure rfl
      exact KeepsLen.pre (fun _ => KeepsLen.pre fun _ => KeepsLen.pre fun _ => bresenham_len (hs _ _ _)) d
    · exact Part.pure rfl

theorem draw_circle_len {ch : Nat} {hex : Option (List Char)} {r cx cy : Dbl} : KeepsLen (fcv_draw_circle P w h ch hex r cx cy) :=
  drawShape_len fun _ _ _ _ _ => circle_points_len

theorem draw_disk_len {ch : Nat} {hex : Option (List Char)} {r cx cy : Dbl} : KeepsLen (fcv_draw_disk P w h ch hex r cx cy) :=
  drawShape_len fun _ _ _ _ _ => disk_lines_len

theorem drawCorners_len {w h : Int} {k : Corners Dbl} : KeepsLen (drawCorners P w h k) := by
  unfold drawCorners
  exact draw_disk_len.bind (draw_disk_len.bind (draw_disk_len.bind draw_disk_len))

theorem copyOf_shaped {n : Nat} : Shaped n (copyOf n d) := by
  unfold copyOf
  refine Shaped.malloc Shaped.null fun i => ?_
  refine Shaped.use (R := Whole n) ?_ fun c hc => Shaped.ret hc
  exact Inits.whole (by simp) (Inits.memcpyIn 0 d 0 n) fun _ i hi => Or.inr (by omega)

theorem mapM_some : ∀ {c : Cells UInt8} {l : List UInt8}, c.mapM id = some l → c = l.map some
  | [], l, e => by
    simp only [List.mapM_nil] at e
    cases e
    rfl
  | a :: c, l, e => by
    rw [List.mapM_cons] at e
    cases a with
    | none => cases e
    | some v =>
      cases hc : c.mapM id with
      | none =>
        rw [hc] at e
        cases e
      | some l' =>
        rw [hc] at e
        cases e
        rw [mapM_some hc]
        rfl

theorem asInput_part {c : Cells UInt8} : Part (asInput c) fun l => c = l.map some := by
  intro l e
  unfold asInput at e
  split at e
  · rename_i l' hl
    cases e
    exact mapM_some hl
  · cases e

theorem drawOnCopy_shaped {n : Nat} {f : List UInt8 → CM (List UInt8)} (hf : KeepsLen f) : Shaped n (drawOnCopy n d f) := by
  unfold drawOnCopy
  intro hp
  refine HPart.bind (copyOf_shaped hp) ?_
  intro r h' hr
  cases r with
  | none => exact HPart.pure fun _ e => by cases e
  | some b =>
    have hb := hr b rfl
    refine HPart.bind (HPart.use (Q := fun e => e.length = n) ?_) ?_
    · refine Part.bind asInput_part fun l hl => (hf l).mono fun e he => ?_
      have := hb.1
      rw [hl] at this
      simpa [he] using this
    · rintro e h'' ⟨he, _⟩
      refine HPart.pure fun b' e' => ?_
      cases e'
      exact ⟨by simpa using he, fun _ => ⟨e, rfl⟩⟩

end FlatCV.Model
