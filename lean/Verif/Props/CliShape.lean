/-
C66: the images that a pipeline of the command line tool produces have the reported size.

No condition is placed on operations, parameters, image contents or allocation failures.  An image of more than 2^32 bytes has the
right size but may not be initialised everywhere (see C14, C88).
-/
import Verif.Lemmas.CliShape
import Verif.Props.CliOps

namespace FlatCV.Props
open FlatCV FlatCV.Model FlatCV.Spec

variable {P : Plat} {M : MathLib} {L : Lib} {w h : Nat} {d : List UInt8} {op : PipelineOp}

/-- Whenever the operation returns an image, it is proper. -/
def GivesProper (m : HM (Option (Buf UInt8) × Int × Int)) : Prop := ∀ hp, HPart m hp fun r _ => SizedRight r

theorem GivesProper.null {v : Int × Int} : GivesProper (pure (none, v)) := fun _ => HPart.pure fun _ e => by cases e

theorem GivesProper.seq {β : Type} {m : HM β} {f : β → HM (Option (Buf UInt8) × Int × Int)} (h : ∀ b, GivesProper (f b)) :
    GivesProper (m >>= f) := fun _ => HPart.seq fun a h' => h a h'

theorem GivesProper.ite {p : Prop} [Decidable p] {a b : HM (Option (Buf UInt8) × Int × Int)} (ha : p → GivesProper a)
    (hb : ¬ p → GivesProper b) : GivesProper (if p then a else b) := by
  split
  · exact ha ‹_›
  · exact hb ‹_›

theorem u32sub_lt (a b : Nat) : IsU32 (u32sub a b) := by
  unfold IsU32 u32sub
  omega

theorem same_proper (p : Picture P w h d) {m : HM (Option (Buf UInt8))} (hm : Shaped (w * h * 4) m) : GivesProper (sameSize w h m) := by
  intro hp
  refine HPart.bind (hm hp) ?_
  intro r h' hr
  refine HPart.pure fun b e => ?_
  have := p.w_int
  have := p.h_int
  exact ⟨w, h, p.img.w_pos, p.img.h_pos, p.img.w_u32, p.img.h_u32, by rw [i32OfU32_eq (by omega), i32OfU32_eq (by omega)], hr b e⟩

theorem new_proper {w h : Int} {m : HM (Option (Buf UInt8) × Option (Nat × Nat))} (hm : ShapedDims m) : GivesProper (newSize w h m) := by
  intro hp
  refine HPart.bind (hm hp) ?_
  rintro ⟨r, v⟩ h' hr
  cases r with
  | none => exact HPart.pure fun _ e => by cases e
  | some b =>
    obtain ⟨ow, oh, e, a1, a2, a3, a4, a5⟩ := hr b rfl
    dsimp only at e
    subst e
    refine HPart.pure fun b' e => ?_
    cases e
    exact ⟨ow, oh, a1, a2, a3, a4, rfl, a5⟩

theorem given_proper {w h : Int} {ow oh : Nat} {m : HM (Option (Buf UInt8))} (hw : IsU32 ow) (hh : IsU32 oh)
    (hm : ∀ hp, HPart m hp fun r _ => ∀ b, r = some b → 0 < ow ∧ 0 < oh ∧ Whole (ow * oh * 4) b.cells) :
    GivesProper (givenSize w h ow oh m) := by
  intro hp
  refine HPart.bind (hm hp) ?_
  intro r h' hr
  cases r with
  | none => exact HPart.pure fun _ e => by cases e
  | some b =>
    obtain ⟨a1, a2, a3⟩ := hr b rfl
    refine HPart.pure fun b' e => ?_
    cases e
    exact ⟨ow, oh, a1, a2, hw, hh, rfl, a3⟩

theorem byteCount_part (p : Picture P w h d) : Part (byteCount P (w : Int) (h : Int)) fun n => n = w * h * 4 := by
  unfold byteCount
  refine Part.bind (P := fun a => a = (w : Int) * h) (fun a e => ?_) ?_
  · unfold i32 at e
    split at e <;> cases e
    rfl
  · rintro a rfl
    refine Part.bind (P := fun b => b = (w : Int) * h * 4 ∧ b ≤ 2147483647) (fun a e => ?_) ?_
    · unfold i32 at e
      split at e
      · rename_i hi
        cases e
        exact ⟨rfl, hi.2⟩
      · cases e
    · rintro b ⟨rfl, hb⟩
      refine Part.pure ?_
      have e : ((w : Int) * h * 4) = ((w * h * 4 : Nat) : Int) := by push_cast; ring
      rw [e] at hb ⊢
      exact sizeOfInt_nat (by omega)

theorem crop_positive {ch x y nw nh : Nat} (hch : 0 < ch) (hp : Heap) :
    HPart (fcv_crop P w h ch (some d) x y nw nh) hp fun r _ => ∀ b, r = some b → 0 < nw ∧ 0 < nh ∧ Whole (nw * nh * ch) b.cells := by
  by_cases hz : nw = 0 ∨ nh = 0
  · unfold fcv_crop
    dsimp only
    rw [if_pos (by tauto)]
    exact HPart.pure fun _ e => by cases e
  · refine (crop_shaped hch hp).mono ?_
    intro r h' hr b e
    exact ⟨by omega, by omega, hr b e⟩

theorem trim_proper (p : Picture P w h d) {good : UInt8 → UInt8 → Bool} : GivesProper (trimWith good P d w h 4) := by
  unfold trimWith
  dsimp only
  rw [p.uw, p.uh]
  refine GivesProper.ite (fun _ => GivesProper.null) fun h0 => GivesProper.seq fun v => ?_
  obtain ⟨left, right, top, bottom⟩ := v
  dsimp only
  have hpos := p.img.h_pos
  have g1 := le_of_guard hpos fun h => h0 (Or.inl h)
  have h0' : ¬ P.sz (w * h) > P.szMax / 4 := fun h => h0 (Or.inr h)
  rw [P.sz_eq' g1] at h0' ⊢
  have g2 := le_of_guard (by omega) h0'
  rw [P.sz_eq' g2]
  refine GivesProper.ite (fun _ => ?_) fun _ => ?_
  · refine same_proper p (Shaped.allocFill ?_)
    exact Inits.whole (by simp) (Inits.memcpyIn 0 d 0 _) fun _ i hi => Or.inr (by omega)
  · intro hp
    refine HPart.bind (crop_positive (by decide) hp) ?_
    intro r h' hr
    refine HPart.pure fun b e => ?_
    obtain ⟨a1, a2, a3⟩ := hr b e
    exact ⟨_, _, a1, a2, u32sub_lt _ _, u32sub_lt _ _, rfl, a3⟩

theorem warp_shaped {w h : Nat} {k : Corners Dbl} {ow oh : Nat} (hw : IsU32 ow) (hh : IsU32 oh) (hp : Heap) :
    HPart (warpDocument P w h d k ow oh) hp fun r _ => ∀ b, r = some b → 0 < ow ∧ 0 < oh ∧ Whole (ow * oh * 4) b.cells := by
  unfold warpDocument
  refine HPart.seq fun t h1 => ?_
  dsimp only
  refine HPart.bind (apply_shaped h1) ?_
  intro r h2 hr
  have conv : ∀ {n : Nat}, IsU32 n → 0 < i32OfU32 n → (i32OfU32 n).toNat = n ∧ 0 < n := by
    intro n hn h0
    unfold IsU32 at hn
    unfold i32OfU32 at h0 ⊢
    split at h0 <;> omega
  have hr' : ∀ b, r.1 = some b → 0 < ow ∧ 0 < oh ∧ Whole (ow * oh * 4) b.cells := by
    intro b e
    obtain ⟨a1, a2, a3⟩ := hr b e
    rw [(conv hw a1).1, (conv hh a2).1] at a3
    exact ⟨(conv hw a1).2, (conv hh a2).2, a3⟩
  split
  · exact HPart.pure hr'
  · split
    · exact HPart.pure hr'
    · split
      · intro a h' e
        cases e
      · exact HPart.seq fun _ _ => HPart.pure hr'

theorem documentSide_u32 {a b : Dbl} : Part (documentSide a b) IsU32 := by
  unfold documentSide
  refine Part.bind (Part.trivial _) fun q _ => Part.bind castU32_part fun n hn => Part.pure ?_
  split
  · decide
  · exact hn

theorem shaped_of_yields {m : HM (Option (Buf UInt8))} {out : List UInt8} {n : Nat} (hy : Yields m out) (hl : out.length = n) :
    Shaped n m := by
  intro hp
  refine (hy hp).part.mono ?_
  intro r h' hr b e
  subst e
  rw [hr.2]
  exact ⟨by simpa using hl, fun _ => ⟨out, rfl⟩⟩

theorem swapped_proper (p : Picture P w h d) {m : HM (Option (Buf UInt8))} {out : List UInt8} (hy : Yields m out)
    (hl : out.length = h * w * 4) :
    GivesProper (m >>= fun r => match r with
      | some b => pure (some b, (h : Int), (w : Int))
      | none => pure (none, (w : Int), (h : Int))) := by
  intro hp
  refine HPart.bind (shaped_of_yields hy hl hp) ?_
  intro r h' hr
  cases r with
  | none => exact HPart.pure fun _ e => by cases e
  | some b =>
    refine HPart.pure fun b' e => ?_
    cases e
    have := p.w_int
    have := p.h_int
    exact ⟨h, w, p.img.h_pos, p.img.w_pos, p.img.h_u32, p.img.w_u32, by rw [i32OfU32_eq (by omega), i32OfU32_eq (by omega)], hr b rfl⟩

theorem rotate_proper (p : Picture P w h d) : GivesProper (rotateOp P w h op d) := by
  unfold rotateOp
  refine GivesProper.ite (fun _ => GivesProper.seq fun a => ?_) fun _ => GivesProper.null
  dsimp only
  rw [p.uw, p.uh]
  have w1 := p.w_int
  have h1 := p.h_int
  have hlen := p.img.len
  have hs := p.img.size
  rw [hlen] at hs
  refine GivesProper.ite (fun _ => GivesProper.null) fun _ => GivesProper.ite (fun _ => same_proper p ?_) fun _ =>
    GivesProper.ite (fun _ => ?_) fun _ => GivesProper.ite (fun _ => same_proper p ?_) fun _ => ?_
  · rw [sizeOfInt_nat (by omega), sizeOfInt_nat (by omega)]
    have hw : w * h ≤ P.szMax := by omega
    rw [P.sz_eq' hw, P.sz_eq' hs]
    exact copyOf_shaped
  · exact swapped_proper p (rotate_90_correct p.img) (mkImg_length ..)
  · exact shaped_of_yields (rotate_180_correct p.img) (mkImg_length ..)
  · exact swapped_proper p (rotate_270_correct p.img) (mkImg_length ..)

theorem shape_proper (p : Picture P w h d) {draw : Option (List Char) → Dbl → Dbl → Dbl → List UInt8 → CM (List UInt8)}
    (hd : ∀ a b c e, KeepsLen (draw a b c e)) : GivesProper (shapeOnCopy P w h op d draw) := by
  unfold shapeOnCopy
  refine GivesProper.ite (fun _ => GivesProper.seq fun copy => ?_) fun _ => GivesProper.null
  intro hp
  refine HPart.bind (HPart.use (byteCount_part p)) ?_
  rintro n h1 ⟨rfl, _⟩
  refine HPart.bind (drawOnCopy_shaped (hd _ _ _ _) h1) ?_
  intro r h2 hr
  refine HPart.seq fun _ _ => HPart.pure fun b e => ?_
  have := p.w_int
  have := p.h_int
  exact ⟨w, h, p.img.w_pos, p.img.h_pos, p.img.w_u32, p.img.h_u32, by rw [i32OfU32_eq (by omega), i32OfU32_eq (by omega)], hr b e⟩

theorem counted_shaped (p : Picture P w h d) {f : Nat → HM (Option (Buf UInt8))} (hf : Shaped (w * h * 4) (f (w * h * 4))) :
    Shaped (w * h * 4) (use [] (byteCount P w h) >>= f) :=
  Shaped.use (byteCount_part p) fun n hn => by rw [hn]; exact hf

theorem watershedOp_shaped : Shaped (u32OfInt w * u32OfInt h * 4) (watershedOp P L w h op d) := by
  unfold watershedOp
  refine Shaped.ite (fun _ => Shaped.seq fun copy => ?_) fun _ => Shaped.null
  dsimp only
  refine Shaped.seq fun r => ?_
  cases r with
  | none => exact Shaped.seq fun _ => Shaped.null
  | some markers =>
    refine Shaped.seq fun v => ?_
    obtain ⟨i, c⟩ := v
    refine Shaped.ite (fun _ => Shaped.seq fun _ => Shaped.seq fun _ => Shaped.null) fun _ => Shaped.seq fun r => ?_
    cases r with
    | none => exact Shaped.seq fun _ => Shaped.seq fun _ => Shaped.null
    | some g =>
      refine Shaped.seq fun gray => Shaped.seq fun ms => ?_
      intro hp
      refine HPart.bind (watershed_shaped hp) ?_
      intro r h' hr
      exact HPart.seq fun _ _ => HPart.seq fun _ _ => HPart.seq fun _ _ => HPart.pure hr

/-- C66 for one operation: whatever the operation and its parameters, and for every image, if it returns an image then one of the
reported size. -/
theorem apply_operation_proper (p : Picture P w h d) : GivesProper (apply_operation P M L w h op d) := by
  have uw := p.uw
  have uh := p.uh
  have hn : u32OfInt (w : Int) * u32OfInt (h : Int) * 4 = w * h * 4 := by rw [uw, uh]
  unfold apply_operation
  dsimp only
  have same : ∀ {m : HM (Option (Buf UInt8))}, Shaped (u32OfInt (w : Int) * u32OfInt (h : Int) * 4) m → GivesProper (sameSize w h m) :=
    fun hm => same_proper p (hn ▸ hm)
  refine GivesProper.ite (fun _ => same grayscale_shaped) fun _ => ?_
  refine GivesProper.ite (fun _ => GivesProper.ite (fun _ => same blur_shaped) fun _ => GivesProper.null) fun _ => ?_
  refine GivesProper.ite (fun _ => ?_) fun _ => ?_
  · unfold resizeOp
    refine GivesProper.seq fun f => ?_
    cases f with
    | none => exact GivesProper.null
    | some v => exact new_proper resize_shaped
  refine GivesProper.ite (fun _ => same otsu_shaped) fun _ => ?_
  refine GivesProper.ite (fun _ => same bw_shaped) fun _ => ?_
  refine GivesProper.ite (fun _ => same bw_shaped) fun _ => ?_
  refine GivesProper.ite (fun _ => same_proper p (Shaped.seq fun k => counted_shaped p copyOf_shaped)) fun _ => ?_
  refine GivesProper.ite (fun _ => same_proper p (Shaped.seq fun k => counted_shaped p (drawOnCopy_shaped drawCorners_len))) fun _ => ?_
  refine GivesProper.ite (fun _ => same backToRGBA_shaped) fun _ => ?_
  refine GivesProper.ite (fun _ => shape_proper p fun _ _ _ _ => draw_circle_len) fun _ => ?_
  refine GivesProper.ite (fun _ => shape_proper p fun _ _ _ _ => draw_disk_len) fun _ => ?_
  refine GivesProper.ite (fun _ => same watershedOp_shaped) fun _ => ?_
  refine GivesProper.ite (fun _ => ?_) fun _ => ?_
  · unfold cropOpRun
    refine GivesProper.ite (fun _ => ?_) fun _ => GivesProper.null
    refine GivesProper.seq fun xo => GivesProper.seq fun yo => ?_
    intro hp
    refine HPart.bind (HPart.use (Q := IsU32) ?_) ?_
    · exact Part.bind (Part.trivial _) fun q _ => castU32_part
    rintro cw h1 ⟨hcw, _⟩
    refine HPart.bind (HPart.use (Q := IsU32) ?_) ?_
    · exact Part.bind (Part.trivial _) fun q _ => castU32_part
    rintro ch h2 ⟨hch, _⟩
    dsimp only
    have lim : ∀ {a b : Nat}, IsU32 a → IsU32 b → IsU32 (if a > b then b else a) := by
      intro a b ha hb
      split <;> assumption
    exact GivesProper.ite (fun _ => GivesProper.null)
      (fun _ => given_proper (lim hcw (u32sub_lt _ _)) (lim hch (u32sub_lt _ _)) (fun hp => crop_positive (by decide) hp)) h2
  refine GivesProper.ite (fun _ => new_proper ?_) fun _ => ?_
  · unfold fcv_extract_document_auto
    intro hp
    refine HPart.seq fun k h1 => ?_
    refine HPart.bind (HPart.use (Q := fun s : Nat × Nat => IsU32 s.1 ∧ IsU32 s.2) ?_) ?_
    · unfold documentSize
      refine Part.bind (Part.trivial _) fun _ _ => Part.bind (Part.trivial _) fun _ _ => Part.bind (Part.trivial _) fun _ _ =>
        Part.bind (Part.trivial _) fun _ _ => Part.bind documentSide_u32 fun a ha => Part.bind documentSide_u32 fun b hb => Part.pure ⟨ha, hb⟩
    · rintro s h2 ⟨⟨s1, s2⟩, _⟩
      refine HPart.bind (warp_shaped s1 s2 h2) ?_
      intro r h3 hr
      refine HPart.pure fun b e => ?_
      obtain ⟨a1, a2, a3⟩ := hr b e
      exact ⟨s.1, s.2, rfl, a1, a2, s1, s2, a3⟩
  refine GivesProper.ite (fun _ => ?_) fun _ => ?_
  · unfold extractOpTo
    refine GivesProper.ite (fun _ => ?_) fun _ => GivesProper.null
    intro hp
    refine HPart.bind (HPart.use (Q := IsU32) ?_) ?_
    · exact Part.bind (Part.trivial _) fun q _ => castU32_part
    rintro ow h1 ⟨how, _⟩
    refine HPart.bind (HPart.use (Q := IsU32) ?_) ?_
    · exact Part.bind (Part.trivial _) fun q _ => castU32_part
    rintro oh h2 ⟨hoh, _⟩
    refine given_proper how hoh (fun hp => ?_) h2
    unfold fcv_extract_document
    exact HPart.seq fun k h3 => warp_shaped how hoh h3
  rw [uw, uh]
  refine GivesProper.ite (fun _ => same_proper p (shaped_of_yields (flip_x_correct p.img) (mkImg_length ..))) fun _ => ?_
  refine GivesProper.ite (fun _ => same_proper p (shaped_of_yields (flip_y_correct p.img) (mkImg_length ..))) fun _ => ?_
  refine GivesProper.ite (fun _ => rotate_proper p) fun _ => ?_
  refine GivesProper.ite (fun _ => ?_) fun _ => ?_
  · have exact_trim : GivesProper (fcv_trim P w h 4 (some d)) := by
      unfold fcv_trim
      exact GivesProper.ite (fun _ => GivesProper.null) fun _ => trim_proper p
    have near : ∀ t, GivesProper (fcv_trim_threshold P w h 4 (some d) t) := by
      intro t
      unfold fcv_trim_threshold
      refine GivesProper.ite (fun _ => GivesProper.null) fun _ => ?_
      cases t with
      | nan => exact GivesProper.null
      | inf n => exact GivesProper.null
      | fin t => exact GivesProper.seq fun tol => GivesProper.ite (fun _ => exact_trim) fun _ => trim_proper p
    exact GivesProper.ite (fun _ => near _) fun _ => GivesProper.ite (fun _ => near _) fun _ => exact_trim
  refine GivesProper.ite (fun _ => new_proper histogram_shaped) fun _ => ?_
  refine GivesProper.ite (fun _ => ?_) fun _ => ?_
  · unfold borderOp
    refine GivesProper.ite (fun _ => GivesProper.seq fun b => new_proper ?_) fun _ => GivesProper.null
    rw [uw, uh]
    exact border_shaped p.img.w_u32 p.img.h_u32
  refine GivesProper.ite (fun _ => same morph_shaped) fun _ => ?_
  refine GivesProper.ite (fun _ => same morph_shaped) fun _ => ?_
  refine GivesProper.ite (fun _ => same morph_shaped) fun _ => ?_
  refine GivesProper.ite (fun _ => same morph_shaped) fun _ => ?_
  exact GivesProper.null

theorem _root_.FlatCV.HPart.after {α β : Type} {m : HM α} {f : α → HM β} {hp h1 : Heap} {a : α} {Q : β → Heap → Prop}
    (h : HPart (m >>= f) hp Q) (e : m hp = .ok (a, h1)) : HPart (f a) h1 Q := by
  intro b h' e'
  refine h b h' ?_
  rw [hm_bind, e]
  exact e'

/-- The reported sides are not negative, that is, below 2^31. -/
def InRange (r : Option (Buf UInt8) × Int × Int) : Prop := r.1 ≠ none → 0 ≤ r.2.1 ∧ 0 ≤ r.2.2

theorem picture_of_proper (h64 : 64 ≤ P.szBits) {b : Buf UInt8} {zw zh : Int} (hb : SizedRight (some b, zw, zh)) (hw : 0 ≤ zw) (hh : 0 ≤ zh)
    (hd : b.cells = d.map some) : ∃ w h : Nat, zw = w ∧ zh = h ∧ Picture P w h d := by
  obtain ⟨ow, oh, p1, p2, u1, u2, e, l, _⟩ := hb b rfl
  have e1 : zw = i32OfU32 ow := congrArg Prod.fst e
  have e2 : zh = i32OfU32 oh := congrArg Prod.snd e
  have conv : ∀ {n : Nat}, IsU32 n → 0 ≤ i32OfU32 n → i32OfU32 n = n ∧ n ≤ 2147483647 := by
    intro n hn h0
    unfold IsU32 at hn
    unfold i32OfU32 at h0 ⊢
    split at h0
    · rename_i hlt
      rw [if_pos hlt]
      exact ⟨by omega, by omega⟩
    · omega
  obtain ⟨c1, l1⟩ := conv u1 (e1 ▸ hw)
  obtain ⟨c2, l2⟩ := conv u2 (e2 ▸ hh)
  have hl : d.length = ow * oh * 4 := by
    have : b.cells.length = ow * oh * 4 := l
    rw [hd] at this
    simpa using this
  refine ⟨ow, oh, e1.trans c1, e2.trans c2, ⟨p1, p2, u1, u2, hl, ?_⟩, l1, l2⟩
  have hm : (2 : Nat) ^ 64 ≤ P.mod := Nat.pow_le_pow_right (by decide) h64
  have hprod : ow * oh ≤ 2147483647 * 2147483647 := Nat.mul_le_mul l1 l2
  unfold Plat.szMax
  omega

theorem runOps_proper (h64 : 64 ≤ P.szBits) {input : Buf UInt8} : ∀ (ops : List PipelineOp) (zw zh : Int) (cur : Buf UInt8)
    (temp : Option Nat) (hp : Heap), SizedRight (some cur, zw, zh) →
    (∀ q, q <+: ops → q ≠ ops → HPart (runOps (apply_operation P M L) input q zw zh cur temp) hp fun r _ => InRange r) →
    HPart (runOps (apply_operation P M L) input ops zw zh cur temp) hp fun r _ => SizedRight r := by
  intro ops
  induction ops with
  | nil => intro zw zh cur temp hp hc _; exact HPart.pure hc
  | cons op rest ih =>
    intro zw zh cur temp hp hc hfit
    have h0 := hfit [] (List.nil_prefix) (by simp) (some cur, zw, zh) hp rfl (by simp)
    have ht : ∀ q, q <+: rest → q ≠ rest →
        HPart (runOps (apply_operation P M L) input (op :: q) zw zh cur temp) hp fun r _ => InRange r :=
      fun q hq hne => hfit (op :: q) (List.cons_prefix_cons.2 ⟨rfl, hq⟩) (by simpa using hne)
    simp only [runOps] at ht ⊢
    have hu : HPart (use [cur.id] (asInput cur.cells)) hp fun d h' => cur.cells = d.map some ∧
        use [cur.id] (asInput cur.cells) hp = .ok (d, h') := fun d h' e => ⟨(HPart.use asInput_part d h' e).1, e⟩
    refine HPart.bind hu ?_
    rintro d h1 ⟨hd, e1⟩
    obtain ⟨w, h, rfl, rfl, p⟩ := picture_of_proper h64 hc h0.1 h0.2 hd
    have ha : HPart (apply_operation P M L (w : Int) (h : Int) op d) h1 fun r h' => SizedRight r ∧
        apply_operation P M L (w : Int) (h : Int) op d h1 = .ok (r, h') := fun r h' e => ⟨apply_operation_proper p h1 r h' e, e⟩
    refine HPart.bind ha ?_
    rintro ⟨r, zw', zh'⟩ h2 ⟨hr, e2⟩
    have none' : ∀ {hp : Heap}, HPart (pure (none, zw', zh') : HM OpResult) hp fun r _ => SizedRight r :=
      HPart.pure fun _ e => by cases e
    have ht' := fun q hq hne => ((ht q hq hne).after e1).after e2
    clear ht ha hu hfit
    cases r with
    | none =>
      dsimp only
      cases temp with
      | none => exact none'
      | some t =>
        dsimp only
        split
        · exact HPart.seq fun _ _ => none'
        · exact none'
    | some b =>
      dsimp only at ht' ⊢
      cases temp with
      | none => exact ih zw' zh' b (some b.id) h2 hr ht'
      | some t =>
        dsimp only at ht' ⊢
        by_cases hti : t ≠ input.id
        · simp only [if_pos hti] at ht' ⊢
          refine HPart.bind (P := fun u h' => free t h2 = .ok (u, h')) (fun _ _ e => e) ?_
          intro u h3 e3
          exact ih zw' zh' b (some b.id) h3 hr fun q hq hne => (ht' q hq hne).after e3
        · simp only [if_neg hti] at ht' ⊢
          exact ih zw' zh' b (some b.id) h2 hr ht'

/-- C66, partial: for every pipeline on every image and every pattern of failing allocations.  When the pipeline finishes with an
image, that image has the reported size; in particular (take `ops` shorter) so has the image after every single operation.

Missing from the full claim: the bytes are known to be initialised only for images up to 2^32 bytes; the images that operations
receive have sides below 2^31 (the tool passes sizes as `int`); `size_t` has at least 64 bits. -/
theorem execute_pipeline_proper_partial (h64 : 64 ≤ P.szBits) (p : Picture P w h d) {input : Buf UInt8} (hi : input.cells = d.map some)
    {ops : List PipelineOp} {hp : Heap}
    (hr : ∀ q, q <+: ops → q ≠ ops → HPart (execute_pipeline (apply_operation P M L) w h q input) hp fun r _ => InRange r) :
    HPart (execute_pipeline (apply_operation P M L) w h ops input) hp fun r _ => SizedRight r := by
  refine runOps_proper h64 ops w h input none hp ?_ hr
  rintro b ⟨⟩
  have := p.w_int
  have := p.h_int
  refine ⟨w, h, p.img.w_pos, p.img.h_pos, p.img.w_u32, p.img.h_u32, ?_, ?_, fun _ => ⟨d, hi⟩⟩
  · rw [i32OfU32_eq (by omega), i32OfU32_eq (by omega)]
  · rw [hi, List.length_map, p.img.len]

/-- Turn two pixels clockwise and keep the lower one: the size reported, and the bytes. -/
def turnAndCut (ops : List PipelineOp) : Option (Option (Cells UInt8) × Int × Int) :=
  match execute_pipeline (apply_operation Plat.lp64 ⟨fun _ => 0, fun _ _ => .fin 0, fun _ => .fin 0, fun x => x⟩
    ⟨fun _ => .fin 0, fun _ => [], 9223372036854775807⟩) (2 : Nat) (1 : Nat) ops ⟨0, [1, 2, 3, 4, 5, 6, 7, 8].map some⟩
    ⟨1, [0], fun _ => false⟩ with
  | .ok ((r, v), _) => some (r.map Buf.cells, v)
  | .error _ => none

/-- The hypotheses are met: turn two pixels, then cut one of them off. -/
example : HPart (execute_pipeline (apply_operation Plat.lp64 ⟨fun _ => 0, fun _ _ => .fin 0, fun _ => .fin 0, fun x => x⟩
    ⟨fun _ => .fin 0, fun _ => [], 9223372036854775807⟩) (2 : Nat) (1 : Nat) [rotateBy 90, cropBy 0 1 5 5]
    ⟨0, [1, 2, 3, 4, 5, 6, 7, 8].map some⟩) ⟨1, [0], fun _ => false⟩ fun r _ => SizedRight r := by
  refine execute_pipeline_proper_partial (by decide) picture_example rfl ?_
  intro q hq hne r h' e _
  have hr : (turnAndCut q).map Prod.snd = some r.2 := by
    unfold turnAndCut
    rw [e]
    rfl
  have hcases : q = [] ∨ q = [rotateBy 90] := by
    have := List.prefix_iff_eq_take.1 hq
    match hn : q.length with
    | 0 => exact Or.inl (List.length_eq_zero_iff.1 hn)
    | 1 => right; rw [this, hn]; rfl
    | n + 2 =>
      refine absurd ?_ hne
      rw [hn] at this
      simpa using this
  rcases hcases with rfl | rfl
  · have h1 : (turnAndCut []).map Prod.snd = some (2, 1) := by decide +kernel
    rw [h1] at hr
    rw [← Option.some.inj hr]
    decide
  · have h1 : (turnAndCut [rotateBy 90]).map Prod.snd = some (1, 2) := by decide +kernel
    rw [h1] at hr
    rw [← Option.some.inj hr]
    decide

example : turnAndCut [rotateBy 90, cropBy 0 1 5 5] = some (some ([5, 6, 7, 8].map some), 1, 1) := by decide +kernel

end FlatCV.Props
