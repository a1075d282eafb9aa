/-
C56, C81: EXIF orientation in the command line tool.
-/
import Verif.Model.Orient
import Verif.Spec.Orient
import Verif.Props.Geometry

namespace FlatCV.Props
open FlatCV Model Spec

variable {P : Plat} {w h : Nat} {d : List UInt8}

/-- The loader's block `b` holds the `w × h` RGBA image `d`. -/
structure Loaded (P : Plat) (hp : Heap) (b : Buf UInt8) (w h : Nat) (d : List UInt8) : Prop where
  live : b.id ∈ hp.live
  old : b.id < hp.next
  img : Img P w h 4 d
  cells : b.cells = d.map some

/-- The upright image in the coordinates of the library functions. -/
def uprightImg (o : Int) (w h : Nat) (d : List UInt8) : List UInt8 :=
  match o with
  | 2 => flipX w h d
  | 3 => rot180 w h d
  | 4 => flipY w h d
  | 5 => transpose w h d
  | 6 => rot90 w h d
  | 7 => transverse w h d
  | 8 => rot270 w h d
  | _ => d

theorem upright_uprightImg (o : Int) (hd : d.length = w * h * 4) : Upright o w h d (uprightImg o w h d) := by
  unfold uprightImg
  split
  case h_8 =>
    refine ⟨hd, fun x y c hx hy hc => ?_⟩
    have e : exifSides o = (.top, .left) := by
      unfold exifSides
      split <;> first | contradiction | rfl
    have e2 : sideways o = false := by unfold sideways; rw [e]; rfl
    unfold uprightSize uprightAt
    simp only [e2, e, seen, Bool.false_eq_true, if_false]
  all_goals
    first
    | refine ⟨mkImg_length .., fun x y c hx hy hc => ?_⟩
    | refine ⟨(mkImg_length ..).trans (by rw [Nat.mul_comm h w]), fun x y c hx hy hc => ?_⟩
    simp only [uprightSize, uprightAt, sideways, exifSides, seen, flipX, flipY, rot90, rot180, rot270, transpose,
      transverse, reduceCtorEq, or_self, or_true, true_or, decide_true, decide_false, if_true, if_false,
      Bool.false_eq_true]
    rw [px_mkImg (by omega) (by omega) hc]
    try (congr 1 <;> omega)

/-- The outcome of the transform selected by `orientation`: upright image and matching size, or
no image because an allocation failed. -/
theorem orient_pick (im : Img P w h 4 d) {o : Int} (h1 : o > 1) (h8 : o ≤ 8) (hp : Heap) :
    HOk (orientPick P o w h d) hp fun r h' =>
      r.2 = uprightSize o w h ∧ match r.1 with
        | none => OutOfMemory hp h'
        | some b => FreshResult hp h' b ∧ b.cells = (uprightImg o w h d).map some := by
  have ho : o = 2 ∨ o = 3 ∨ o = 4 ∨ o = 5 ∨ o = 6 ∨ o = 7 ∨ o = 8 := by omega
  rcases ho with rfl | rfl | rfl | rfl | rfl | rfl | rfl
  · exact HOk.bind (flip_x_correct im hp) fun r h' hr => HOk.pure ⟨rfl, by cases r <;> exact hr⟩
  · exact HOk.bind (rotate_180_correct im hp) fun r h' hr => HOk.pure ⟨rfl, by cases r <;> exact hr⟩
  · exact HOk.bind (flip_y_correct im hp) fun r h' hr => HOk.pure ⟨rfl, by cases r <;> exact hr⟩
  · exact HOk.bind (transpose_correct im hp) fun r h' hr => HOk.pure ⟨rfl, by cases r <;> exact hr⟩
  · exact HOk.bind (rotate_90_correct im hp) fun r h' hr => HOk.pure ⟨rfl, by cases r <;> exact hr⟩
  · exact HOk.bind (transverse_correct im hp) fun r h' hr => HOk.pure ⟨rfl, by cases r <;> exact hr⟩
  · exact HOk.bind (rotate_270_correct im hp) fun r h' hr => HOk.pure ⟨rfl, by cases r <;> exact hr⟩

/-- The orientation step never faults: it delivers the upright image with its size, the old block
released; or, when memory runs out, the unchanged block with the size of the upright image. -/
theorem orient_outcome {o : Int} {hp : Heap} {b : Buf UInt8} (lb : Loaded P hp b w h d) :
    HOk (orientImage P o w h b) hp fun r h' =>
      r.2 = uprightSize o w h ∧
      ((r.1 = b ∧ (o ≤ 1 ∨ 8 < o) ∧ h' = hp) ∨
       (r.1 = b ∧ 1 < o ∧ o ≤ 8 ∧ OutOfMemory hp h') ∨
       (r.1.cells = (uprightImg o w h d).map some ∧ hp.next ≤ r.1.id ∧ r.1.id < h'.next ∧
        h'.live = r.1.id :: hp.live.erase b.id ∧ h'.fails = hp.fails)) := by
  unfold orientImage
  by_cases ho : o > 1 ∧ o ≤ 8
  · rw [if_pos ho]
    refine HOk.bind (P := fun q h' => q = d ∧ hp = h') (HOk.use (by simpa using lb.live) ?_) ?_
    · rw [lb.cells, asInput_map_some]
      exact Ok.pure' ⟨rfl, rfl⟩
    rintro q _ ⟨rfl, rfl⟩
    refine HOk.bind (orient_pick lb.img ho.1 ho.2 hp) ?_
    rintro ⟨r, dims⟩ h1 ⟨hdims, hr⟩
    cases r with
    | none => exact HOk.pure ⟨hdims, Or.inr (Or.inl ⟨rfl, ho.1, ho.2, hr⟩)⟩
    | some r =>
      obtain ⟨⟨hl, hf, hn1, hn2⟩, hc⟩ := hr
      have hlt := lb.old
      have hne : ¬ r.id = b.id := by omega
      refine HOk.bind (P := fun _ h2 => h2 = { h1 with live := h1.live.erase b.id })
        (HOk.free (by rw [hl]; exact List.mem_cons_of_mem _ lb.live) rfl) ?_
      rintro _ _ rfl
      refine HOk.pure ⟨hdims, Or.inr (Or.inr ⟨hc, hn1, hn2, ?_, hf⟩)⟩
      simp only [hl]
      rw [List.erase_cons_tail (by simpa using hne)]
  · rw [if_neg ho]
    refine HOk.pure ⟨?_, Or.inl ⟨rfl, by omega, rfl⟩⟩
    have e : exifSides o = (.top, .left) := by
      unfold exifSides
      split <;> first | (exfalso; omega) | rfl
    have e2 : sideways o = false := by unfold sideways; rw [e]; rfl
    unfold uprightSize
    rw [e2]
    rfl

/-- C56: whatever the orientation value, unless memory runs out the tool goes on with the upright
image and its size, and exactly one block replaces the loader's. -/
theorem orient_correct {o : Int} {hp : Heap} {b : Buf UInt8} (lb : Loaded P hp b w h d)
    (hmem : ∀ i, hp.next ≤ i → hp.fails i = false) :
    HOk (orientImage P o w h b) hp fun r h' =>
      r.2 = uprightSize o w h ∧
      (∃ out, r.1.cells = out.map some ∧ Upright o w h d out) ∧
      (h'.live = hp.live ∧ r.1.id = b.id ∨ h'.live = r.1.id :: hp.live.erase b.id) := by
  refine (orient_outcome lb).mono ?_
  rintro r h' ⟨h1, h2 | h2 | h2⟩
  · obtain ⟨rfl, ho, rfl⟩ := h2
    refine ⟨h1, ⟨d, lb.cells, ?_⟩, Or.inl ⟨rfl, rfl⟩⟩
    have := upright_uprightImg (w := w) (h := h) (d := d) o lb.img.len
    rwa [show uprightImg o w h d = d from ?_] at this
    unfold uprightImg
    split <;> first | (exfalso; omega) | rfl
  · obtain ⟨_, _, _, _, _, _, i, hi, _, hfi⟩ := h2
    rw [hmem i hi] at hfi
    cases hfi
  · exact ⟨h1, ⟨_, h2.1, upright_uprightImg o lb.img.len⟩, Or.inr h2.2.2.2.1⟩

/-- The upright image is unique. -/
theorem Upright.unique {o : Int} {a b : List UInt8} (ha : Upright o w h d a) (hb : Upright o w h d b) :
    a = b := by
  have hc := Nat.mul_comm h w
  have key : ∀ X Y, X < (uprightSize o w h).1 → Y < (uprightSize o w h).2 →
      ∃ x y, x < w ∧ y < h ∧ uprightAt o w h x y = (X, Y) := by
    intro X Y hX hY
    unfold uprightSize at hX hY
    unfold uprightAt
    cases hs : sideways o
    · simp only [hs, Bool.false_eq_true, if_false] at hX hY ⊢
      refine ⟨seen (exifSides o).2 w X, seen (exifSides o).1 h Y, ?_⟩
      generalize (exifSides o).1 = s1
      generalize (exifSides o).2 = s2
      refine ⟨?_, ?_, Prod.ext ?_ ?_⟩ <;> cases s1 <;> cases s2 <;> simp only [seen] <;> omega
    · simp only [hs, if_true] at hX hY ⊢
      refine ⟨seen (exifSides o).2 w Y, seen (exifSides o).1 h X, ?_⟩
      generalize (exifSides o).1 = s1
      generalize (exifSides o).2 = s2
      refine ⟨?_, ?_, Prod.ext ?_ ?_⟩ <;> cases s1 <;> cases s2 <;> simp only [seen] <;> omega
  have hlen : (uprightSize o w h).1 * (uprightSize o w h).2 * 4 = w * h * 4 := by
    unfold uprightSize
    split
    · simp only [hc]
    · rfl
  refine img_ext (w := (uprightSize o w h).1) (h := (uprightSize o w h).2) (ch := 4)
    (by rw [hlen]; exact ha.1) (by rw [hlen]; exact hb.1) ?_
  intro X Y c hX hY hc4
  obtain ⟨x, y, hx, hy, e⟩ := key X Y hX hY
  have h1 := ha.2 x y c hx hy hc4
  have h2 := hb.2 x y c hx hy hc4
  rw [e] at h1 h2
  rw [h1, h2]

example : Loaded .lp64 ⟨1, [0], fun _ => false⟩ ⟨0, [some 1, some 2, some 3, some 4]⟩ 1 1 [1, 2, 3, 4] :=
  ⟨by decide, by decide, ⟨by decide, by decide, by decide, by decide, rfl, by decide⟩, rfl⟩

/-! ### C81: what happens when memory runs out -/

/-- The tool never goes on with an image whose stored bytes do not match its orientation: either
the image is upright with its size or it is the stored image with the stored size. -/
def OrientConsistent : Prop :=
  ∀ (P : Plat) (o : Int) (w h : Nat) (d : List UInt8) (hp : Heap) (b : Buf UInt8), Loaded P hp b w h d →
    HOk (orientImage P o w h b) hp fun r _ =>
      (r.2 = uprightSize o w h ∧ ∃ out, r.1.cells = out.map some ∧ Upright o w h d out) ∨
      (r.2 = (w, h) ∧ r.1.cells = d.map some)

/-- C81 is false: a 2×1 image with orientation 8 whose rotation finds no memory continues as a
1×2 image with the unrotated bytes. -/
theorem not_orientConsistent : ¬ OrientConsistent := by
  intro hall
  have lb : Loaded .lp64 ⟨1, [0], fun _ => true⟩ ⟨0, [1, 2, 3, 4, 5, 6, 7, 8].map some⟩ 2 1
      [1, 2, 3, 4, 5, 6, 7, 8] :=
    ⟨by decide, by decide, ⟨by decide, by decide, by decide, by decide, rfl, by decide⟩, rfl⟩
  obtain ⟨r, h', e, hq⟩ := hall .lp64 8 2 1 _ _ _ lb
  have he : orientImage .lp64 8 2 1 ⟨0, [1, 2, 3, 4, 5, 6, 7, 8].map some⟩ ⟨1, [0], fun _ => true⟩
      = .ok ((⟨0, [1, 2, 3, 4, 5, 6, 7, 8].map some⟩, 1, 2), ⟨2, [0], fun _ => true⟩) := by rfl
  rw [he] at e
  cases e
  rcases hq with ⟨_, out, ho, hu⟩ | ⟨h2, _⟩
  · rw [← map_some_inj ho] at hu
    have hu' := Upright.unique hu (upright_uprightImg 8 rfl)
    revert hu'
    decide
  · cases h2

end FlatCV.Props
