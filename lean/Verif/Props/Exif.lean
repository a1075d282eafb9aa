/-
C53, C54, C55, C73, C74: reading the EXIF orientation.
-/
import Verif.Lemmas.Exif

namespace FlatCV.Props
open FlatCV Model Spec

/-- C53: in a well-formed file — any plain segments, either byte order, any directory entries
before the orientation entry — the stored orientation is returned. -/
theorem exif_roundtrip {segs : List Seg} (hs : ∀ s ∈ segs, s.Plain) (l0 l1 : UInt8) {le : Bool}
    {t : List UInt8} {v : Nat} (ht : TiffWithOrientation le t v) :
    fcv_get_exif_orientation (some (jpegWithExif segs l0 l1 t)) = .ok (v : Int) := by
  unfold fcv_get_exif_orientation
  have hf : jpegWithExif segs l0 l1 t = 0xFF :: 0xD8 :: (segs.flatMap Seg.bytes ++
      ([0xFF, 0xE1, l0, l1] ++ exifId ++ t)) := by simp [jpegWithExif, jpegHead]
  simp only
  rw [hf, exifFuel_head]
  generalize hF : (0xFF :: 0xD8 :: (segs.flatMap Seg.bytes ++
      ([0xFF, 0xE1, l0, l1] ++ exifId ++ t)) : List UInt8) = f
  have hdrop : f.drop 2 = segs.flatMap Seg.bytes ++ ([0xFF, 0xE1, l0, l1] ++ exifId ++ t) := by
    rw [← hF]; rfl
  have hlen : f.length = 2 + (segs.flatMap Seg.bytes).length + 10 + t.length := by
    rw [← hF]; simp [exifId]; omega
  have hsl := segs_length segs
  have hat : At f 2 (segs.flatMap Seg.bytes ++ ([0xFF, 0xE1, l0, l1] ++ exifId ++ t)) := by
    rw [At, hdrop]; exact List.prefix_rfl
  obtain ⟨m, hm⟩ : ∃ m, f.length + 1 = segs.length + (m + 1) := ⟨f.length - segs.length, by omega⟩
  rw [hm]
  rcases segs_loop segs hs ([0xE1, l0, l1] ++ exifId ++ t) hat (m + 1) with h1 | ⟨h1, _⟩
  · rw [h1]
    generalize hp : 2 + (segs.flatMap Seg.bytes).length = p at *
    have h2 := hat.right
    rw [hp, List.append_assoc] at h2
    have a1 : At f p [0xFF, 0xE1] := h2.left.left (a := [0xFF, 0xE1]) (b := [l0, l1])
    have f1 : fread f p 2 = (some [0xFF, 0xE1], p + 2) := fread_at a1 (by simp)
    have a2 : At f (p + 4) exifId := h2.right.left
    have f2 : fread f (p + 4) 6 = (some exifId, p + 10) := fread_at a2 (by simp [exifId])
    have hr : (read_u16 f false (p + 2)).2 = p + 4 := by
      rw [read_u16_snd]; unfold fread; rw [if_pos (by omega)]
    have hd : f.drop (p + 10) = t := by
      have : p + 10 = 2 + ((segs.flatMap Seg.bytes).length + 10) := by omega
      rw [this, ← List.drop_drop, hdrop]
      have e : (segs.flatMap Seg.bytes ++ ([0xFF, 0xE1, l0, l1] ++ exifId ++ t))
          = (segs.flatMap Seg.bytes ++ ([0xFF, 0xE1, l0, l1] ++ exifId)) ++ t := by simp
      rw [e]
      apply List.drop_left'
      simp [exifId]
    have hstep : exifStep f (p, none) = .ok ((p + 10, some v), true) := by
      unfold exifStep
      simp only
      rw [f1]
      simp only [ne_eq, not_true_eq_false, if_false]
      rw [if_neg (by decide), if_pos trivial]
      simp only [hr]
      rw [f2]
      simp only
      rw [if_neg (by simp [exifMagic_eq]), tiffPart_ok hd ht]
      rfl
    rw [whileFuel_stop hstep]
    rfl
  · omega

/-- C55: a file that cannot be opened. -/
theorem exif_unreadable : fcv_get_exif_orientation none = .ok 1 := rfl

/-- C55: a file that does not start with `FF D8`. -/
theorem exif_not_jpeg {f : List UInt8} (h : ¬ [0xFF, 0xD8] <+: f) :
    fcv_get_exif_orientation (some f) = .ok 1 := by
  match f, h with
  | [], _ => rfl
  | [_], _ => rfl
  | a :: b :: r, h =>
    have hf : fread (a :: b :: r) 0 2 = (some [a, b], 2) :=
      fread_at (f := a :: b :: r) (p := 0) (bs := [a, b]) ⟨r, rfl⟩ (by simp)
    have hab : a ≠ 0xFF ∨ b ≠ 0xD8 := by
      by_cases h1 : a = 0xFF
      · right
        rintro rfl
        exact h ⟨r, by rw [h1]; rfl⟩
      · exact Or.inl h1
    simp only [fcv_get_exif_orientation, exifFuel]
    rw [hf]
    simp only
    rw [if_pos hab]
    rfl

/-- C55: a JPEG without EXIF block before the image data or the end marker. -/
theorem exif_absent {segs : List Seg} (hs : ∀ s ∈ segs, s.Plain) {m : UInt8}
    (hm : m = 0xD9 ∨ m = 0xDA) (rest : List UInt8) :
    fcv_get_exif_orientation (some (jpegHead segs ++ ([0xFF, m] ++ rest))) = .ok 1 := by
  unfold fcv_get_exif_orientation
  have hf : jpegHead segs ++ ([0xFF, m] ++ rest) = 0xFF :: 0xD8 :: (segs.flatMap Seg.bytes ++
      ([0xFF, m] ++ rest)) := by simp [jpegHead]
  simp only
  rw [hf, exifFuel_head]
  generalize hF : (0xFF :: 0xD8 :: (segs.flatMap Seg.bytes ++ ([0xFF, m] ++ rest)) : List UInt8) = f
  have hdrop : f.drop 2 = segs.flatMap Seg.bytes ++ ([0xFF, m] ++ rest) := by
    rw [← hF]; rfl
  have hlen : f.length = 2 + (segs.flatMap Seg.bytes).length + 2 + rest.length := by
    rw [← hF]; simp; omega
  have hsl := segs_length segs
  have hat : At f 2 (segs.flatMap Seg.bytes ++ ([0xFF, m] ++ rest)) := by rw [At, hdrop]; exact List.prefix_rfl
  obtain ⟨k, hk⟩ : ∃ k, f.length + 1 = segs.length + (k + 1) := ⟨f.length - segs.length, by omega⟩
  rw [hk]
  rcases segs_loop segs hs (m :: rest) hat (k + 1) with h1 | ⟨_, q, h1⟩
  · rw [h1]
    have a1 := hat.right.left
    have f1 := fread_at a1 (by simp)
    have hstep : exifStep f (2 + (segs.flatMap Seg.bytes).length, none)
        = .ok ((2 + (segs.flatMap Seg.bytes).length + 2, none), true) := by
      unfold exifStep
      simp only
      simp only [List.length_cons, List.length_nil] at f1
      rw [f1]
      simp only [ne_eq, not_true_eq_false, if_false]
      rw [if_pos hm]
      rfl
    rw [whileFuel_stop hstep]
    rfl
  · rw [h1]
    rfl

/-! ### C54: termination -/

/-- C54 as stated: reading terminates for every file. -/
def ExifTerminates : Prop :=
  ∀ f : List UInt8, ∃ fuel, exifFuel fuel (some f) ≠ .error .diverge

/-- Every file of plain (non-APP1) segments that is cut off right after a segment marker makes the
function loop for ever, however many rounds are allowed. -/
theorem exif_diverges {segs : List Seg} (hs : ∀ s ∈ segs, s.Plain) (h1 : ∀ s ∈ segs, s.marker ≠ 0xE1)
    {x : UInt8} (hx : x ≠ 0xD9 ∧ x ≠ 0xDA ∧ x ≠ 0xE1) (fuel : Nat) :
    exifFuel fuel (some (jpegHead segs ++ [0xFF, x])) = .error .diverge := by
  have hf : jpegHead segs ++ [0xFF, x] = 0xFF :: 0xD8 :: (segs.flatMap Seg.bytes ++ [0xFF, x]) := by
    simp [jpegHead]
  rw [hf, exifFuel_head]
  generalize hF : (0xFF :: 0xD8 :: (segs.flatMap Seg.bytes ++ [0xFF, x]) : List UInt8) = f
  have hdrop : f.drop 2 = segs.flatMap Seg.bytes ++ [0xFF, x] := by rw [← hF]; rfl
  have hlen : f.length = 2 + (segs.flatMap Seg.bytes).length + 2 := by rw [← hF]; simp; omega
  have hat : At f 2 (segs.flatMap Seg.bytes ++ [0xFF, x]) := by rw [At, hdrop]; exact List.prefix_rfl
  have key : ∀ (segs : List Seg) (p fuel : Nat), (∀ s ∈ segs, s.Plain) →
      (∀ s ∈ segs, s.marker ≠ 0xE1) → At f p (segs.flatMap Seg.bytes ++ [0xFF, x]) →
      f.length = p + (segs.flatMap Seg.bytes).length + 2 →
      whileFuel fuel (p, none) (exifStep f) = .error .diverge := by
    intro segs
    induction segs with
    | nil =>
      intro p fuel _ _ ha hl
      simp only [List.flatMap_nil, List.nil_append, List.length_nil] at ha hl
      have f1 := fread_at ha (by simp)
      simp only [List.length_cons, List.length_nil] at f1
      have hstep : exifStep f (p, none) = .ok ((p, none), false) := by
        unfold exifStep
        simp only
        rw [f1]
        simp only [ne_eq, not_true_eq_false, if_false]
        rw [if_neg (by simp [hx.1, hx.2.1]), if_neg hx.2.2, read_u16_fail (by omega)]
        simp only
        have : fseekCur (max (p + (0 + 1 + 1)) f.length) (((0 : Nat) : Int) - 2) = p := by
          unfold fseekCur
          split <;> omega
        rw [this]
        rfl
      induction fuel with
      | zero => rfl
      | succ n ih => rw [whileFuel_cont hstep, ih]
    | cons s segs ih =>
      intro p fuel hs h1 ha hl
      rw [List.flatMap_cons, List.append_assoc] at ha
      rw [List.flatMap_cons, List.length_append] at hl
      have hff : At f p (s.bytes ++ [0xFF]) := by
        cases segs with
        | nil =>
          have : s.bytes ++ (([] : List Seg).flatMap Seg.bytes ++ [0xFF, x])
              = (s.bytes ++ [0xFF]) ++ [x] := by simp
          rw [this] at ha
          exact ha.left
        | cons t ts =>
          have : s.bytes ++ ((t :: ts).flatMap Seg.bytes ++ [0xFF, x])
              = (s.bytes ++ [0xFF]) ++ ((t.marker :: (u16b false (t.payload.length + 2) ++ t.payload
                ++ ts.flatMap Seg.bytes)) ++ [0xFF, x]) := by
            simp [Seg.bytes]
          rw [this] at ha
          exact ha.left
      have hm := h1 s List.mem_cons_self
      have hstep : exifStep f (p, none) = .ok ((p + s.bytes.length, none), false) := by
        rcases seg_step (hs s List.mem_cons_self) hff none with h | ⟨_, q, h⟩
        · exact h
        · exfalso
          unfold exifStep at h
          have hh : At f p [0xFF, s.marker] := by
            have := hff
            unfold Seg.bytes at this
            rw [List.append_assoc, List.append_assoc] at this
            exact this.left
          have f1 := fread_at hh (by simp)
          simp only [List.length_cons, List.length_nil] at f1
          simp only at h
          rw [f1] at h
          simp only [ne_eq, not_true_eq_false, if_false] at h
          rw [if_neg (not_or.2 ⟨(hs s List.mem_cons_self).notEOI, (hs s List.mem_cons_self).notSOS⟩),
            if_neg hm] at h
          cases h
      cases fuel with
      | zero => rfl
      | succ n =>
        rw [whileFuel_cont hstep]
        exact ih _ n (fun y hy => hs y (List.mem_cons_of_mem _ hy))
          (fun y hy => h1 y (List.mem_cons_of_mem _ hy)) ha.right (by omega)
  rw [key segs 2 fuel hs h1 hat hlen]
  rfl

/-- C54 is false: the four bytes `FF D8 FF E0`. -/
theorem not_exifTerminates : ¬ ExifTerminates := by
  intro h
  obtain ⟨fuel, hf⟩ := h [0xFF, 0xD8, 0xFF, 0xE0]
  exact hf (exif_diverges (segs := []) (by simp) (by simp) (x := 0xE0) (by decide) fuel)

/-- C54, the part that holds: a file that does not end in a segment marker (for example one that
ends with `FF D9`) is read in finite time.  Missing from the full claim: exactly the files ending
in `FF x`, `x ∉ {D9, DA, E1}`, some of which loop (`exif_diverges`). -/
theorem exif_terminates_partial {f : List UInt8} (h : ¬ EndsInMarker f) {fuel : Nat}
    (hf : f.length < fuel) : exifFuel fuel (some f) ≠ .error .diverge := by
  have hw : ∀ p, whileFuel fuel (p, none) (exifStep f) ≠ .error .diverge := by
    intro p
    refine whileFuel_no_diverge (fun _ => True) (fun s => f.length - s.1) trivial
      (by simp only; omega) ?_
    intro s _
    obtain ⟨h1, h2⟩ := exifStep_progress h s
    refine ⟨h1, fun s' hs' => ⟨trivial, ?_⟩⟩
    have := h2 s' hs'
    omega
  unfold exifFuel
  simp only
  split
  · split
    · simp [pure, Except.pure]
    · rename_i p _ _
      cases hx : whileFuel fuel (p, none) (exifStep f) with
      | error e => intro h'; apply hw p; rw [hx]; cases h'; rfl
      | ok r =>
        simp only [ok_bind]
        split <;> simp [pure, Except.pure]
  · simp [pure, Except.pure]

/-- Files that end with the end-of-image marker are read in finite time. -/
theorem exif_terminates_eoi (f : List UInt8) :
    fcv_get_exif_orientation (some (f ++ [0xFF, 0xD9])) ≠ .error .diverge := by
  apply exif_terminates_partial
  · rintro ⟨x, ⟨a, ha⟩, hx, _⟩
    have := congrArg (fun l : List UInt8 => l.getLast?) ha
    have hl := congrArg List.length ha
    simp at this
    exact hx this
  · simp

/-! ### C73: undefined behaviour -/

/-- C73 as stated: no file content causes undefined behaviour. -/
def ExifNoUB : Prop := ∀ (f : List UInt8) (fuel : Nat), exifFuel fuel (some f) ≠ .error .signedOverflow

/-- A directory entry whose 32-bit count has its top bit set makes `byte << 24` overflow `int`. -/
theorem not_exifNoUB : ¬ ExifNoUB := by
  intro h
  refine h ([0xFF, 0xD8, 0xFF, 0xE1, 0, 34] ++ exifId ++ [0x4D, 0x4D, 0, 42, 0, 0, 0, 8] ++
    [0, 1] ++ [0x01, 0x12, 0, 3, 0x80, 0, 0, 0, 0, 6, 0, 0]) 5 ?_
  rfl

/-- C73, the part that holds: apart from that shift (and the divergence of C54) nothing can go
wrong, and the result is a 16-bit number. -/
theorem exif_outcomes_partial (file : Option (List UInt8)) (fuel : Nat) :
    (∃ r, exifFuel fuel file = .ok r ∧ 0 ≤ r ∧ r < 65536) ∨
      exifFuel fuel file = .error .diverge ∨ exifFuel fuel file = .error .signedOverflow :=
  exif_out file fuel

/-! ### C74: fill bytes -/

/-- C74 as stated: a fill byte `FF` in front of the APP1 marker does not change the result. -/
def ExifFillBytes : Prop :=
  ∀ (l0 l1 : UInt8) (le : Bool) (t : List UInt8) (v : Nat), TiffWithOrientation le t v →
    fcv_get_exif_orientation (some ([0xFF, 0xD8, 0xFF] ++ ([0xFF, 0xE1, l0, l1] ++ exifId ++ t)))
      = .ok (v : Int)

/-- A small TIFF block with orientation 6, big-endian. -/
def tiffExample : List UInt8 :=
  [0x4D, 0x4D, 0, 42, 0, 0, 0, 8] ++ [0, 1] ++ [0x01, 0x12, 0, 3, 0, 0, 0, 1, 0, 6, 0, 0]

theorem tiffExample_ok : TiffWithOrientation false tiffExample 6 :=
  ⟨8, 1, [], 3, 1, by decide, by decide, by decide, by decide, by decide, by simp, by decide,
    by decide, by decide⟩

/-- C74 is false: the orientation is lost. -/
theorem not_exifFillBytes : ¬ ExifFillBytes := by
  intro h
  have h1 := h 0 30 false tiffExample 6 tiffExample_ok
  have h2 : fcv_get_exif_orientation (some ([0xFF, 0xD8, 0xFF] ++
    ([0xFF, 0xE1, 0, 30] ++ exifId ++ tiffExample))) = .ok 1 := rfl
  rw [h2] at h1
  cases h1

/-! ### Concrete instances -/

/-- A little-endian block with one entry before the orientation entry. -/
def tiffExample2 : List UInt8 :=
  [0x49, 0x49, 42, 0, 10, 0, 0, 0, 0xAA, 0xBB] ++ [3, 0] ++
    [0x00, 0x01, 3, 0, 1, 0, 0, 0, 7, 0, 0, 0] ++ [0x12, 0x01, 3, 0, 1, 0, 0, 0, 8, 0, 0, 0]

example : TiffWithOrientation true tiffExample2 8 :=
  ⟨10, 3, [⟨0x100, 3, 1, [7, 0, 0, 0]⟩], 3, 1, by decide, by decide, by decide, by decide, by decide,
    by
      intro e he
      rw [List.mem_singleton] at he
      subst he
      exact ⟨⟨by decide, by decide, by decide, rfl⟩, by decide⟩,
    by decide, by decide, by decide⟩

example : Seg.Plain ⟨0xE0, [1, 2, 3]⟩ := ⟨by decide, by decide, by decide, by decide⟩
example : Seg.Plain ⟨0xE1, [0x45, 0x78]⟩ := ⟨by decide, by decide, by decide, by decide⟩

example : fcv_get_exif_orientation
    (some (jpegWithExif [⟨0xE0, [1, 2, 3]⟩, ⟨0xE1, [0x45, 0x78]⟩] 0 0 tiffExample2)) = .ok 8 :=
  rfl

end FlatCV.Props
