/-
C107: the pieces of a pipeline do what they ask for.
-/
import Verif.Lemmas.CliMeaning
import Verif.Props.CliMain

namespace FlatCV.Props
open FlatCV FlatCV.Model FlatCV.Spec

variable {P : Plat} {M : MathLib} {L : Lib} {i : Sized} {pc : List Char} {R : Sized → Prop}

/-- A piece is understood as an operation, and that operation makes what is asked for. -/
def Fulfils (P : Plat) (M : MathLib) (L : Lib) (pc : List Char) (i : Sized) (R : Sized → Prop) : Prop :=
  ∃ op, Means L.atof L.fmt pc op ∧ op.operation ∉ cornerOps ∧
    ∃ o, R o ∧ Picture P o.w o.h o.d ∧ Makes (apply_operation P M L i.w i.h (stored op) i.d) o

theorem picture_of {w h : Nat} {d : List UInt8} (hw : 0 < w) (hh : 0 < h) (hl : d.length = w * h * 4) (hs : w * h < 1073741824) : Picture P w h d := by
  have h1 : w ≤ w * h := Nat.le_mul_of_pos_right _ hh
  have h2 : h ≤ w * h := Nat.le_mul_of_pos_left _ hw
  have hmod := P.mod_ge
  refine ⟨⟨hw, hh, by unfold IsU32; omega, by unfold IsU32; omega, hl, ?_⟩, by omega, by omega⟩
  rw [hl]
  unfold Plat.szMax
  omega

theorem fulfils_of {op : PipelineOp} (hm : Means L.atof L.fmt pc op) (hc : op.operation ∉ cornerOps) {o : Sized} (hr : R o)
    (hw : 0 < o.w) (hh : 0 < o.h) (hl : o.d.length = o.w * o.h * 4) (hs : o.w * o.h < 1073741824)
    {m : HM OpResult} (e : apply_operation P M L i.w i.h (stored op) i.d = m) (v : Vals m o) : Fulfils P M L pc i R :=
  ⟨op, hm, hc, o, hr, picture_of hw hh hl hs, makes_of (fun hmem => hc (take_corner hmem)) (by rw [e]; exact v)⟩

section
variable (p : Picture P i.w i.h i.d) (hs : i.w * i.h < 268435456)
include p hs

theorem fulfils_same {op : PipelineOp} (hm : Means L.atof L.fmt pc op) (hc : op.operation ∉ cornerOps) {d : List UInt8} (hr : R ⟨i.w, i.h, d⟩)
    (hl : d.length = i.w * i.h * 4) {m : HM OpResult} (e : apply_operation P M L i.w i.h (stored op) i.d = m) (v : Vals m ⟨i.w, i.h, d⟩) :
    Fulfils P M L pc i R := fulfils_of hm hc hr p.img.w_pos p.img.h_pos hl (by dsimp only; omega) e v

theorem ful_grayscale : Fulfils P M L "grayscale".toList i (· = ⟨i.w, i.h, grayRGBA (i.w * i.h) (lumaAt i.d)⟩) :=
  fulfils_same p hs (.bare ⟨by decide, by decide⟩) (by dsimp only; decide) rfl (by simp)
    (show _ = sameSize i.w i.h (fcv_grayscale P i.w i.h (some i.d)) by simp [apply_operation, stored, p.uw, p.uh])
    (vals_same (grayscale_correct p.img (by omega)))

theorem ful_threshold : Fulfils P M L "threshold".toList i fun o => ∃ t, t < 256 ∧
      FirstMax (i.w * i.h) (lumaAt i.d) (Spec.Usable (i.w * i.h) (lumaAt i.d)) t ∧
      o = ⟨i.w, i.h, grayRGBA (i.w * i.h) fun k => Spec.threshold (UInt8.ofNat t) (lumaAt i.d k)⟩ := by
  obtain ⟨t, h1, h2, y⟩ := otsu_correct p.img (by omega)
  exact fulfils_same p hs (.bare ⟨by decide, by decide⟩) (by decide) ⟨t, h1, h2, rfl⟩ (by simp)
    (show _ = sameSize i.w i.h (fcv_otsu_threshold_rgba P i.w i.h false (some i.d)) by simp [apply_operation, stored, p.uw, p.uh])
    (vals_same (y false))

theorem ful_bwSmart (hex : ExpOk M.ex) (hn : i.w * i.h ≤ 100000000) :
    Fulfils P M L "bw_smart".toList i (SmartBw (fun t => Spec.threshold (UInt8.ofNat t)) i) := by
  obtain ⟨r, B, t, h1, h2, h3, h4, y⟩ := bw_run hex p.img hn
  exact fulfils_same p hs (.bare ⟨by decide, by decide⟩) (by decide) ⟨r, B, t, h1, h2, h3, h4, rfl⟩ (by simp)
    (show _ = sameSize i.w i.h (fcv_bw_smart P M.ex i.w i.h false (some i.d)) by simp [apply_operation, stored, p.uw, p.uh])
    (vals_same (y false))

theorem ful_bwSmooth (hex : ExpOk M.ex) (hn : i.w * i.h ≤ 100000000) :
    Fulfils P M L "bw_smooth".toList i (SmartBw (fun t => ramp ((t + 240) % 256) ((t + 16) % 256)) i) := by
  obtain ⟨r, B, t, h1, h2, h3, h4, y⟩ := bw_run hex p.img hn
  exact fulfils_same p hs (.bare ⟨by decide, by decide⟩) (by decide) ⟨r, B, t, h1, h2, h3, h4, rfl⟩ (by simp)
    (show _ = sameSize i.w i.h (fcv_bw_smart P M.ex i.w i.h true (some i.d)) by simp [apply_operation, stored, p.uw, p.uh])
    (vals_same (y true))

theorem ful_blur (hex : ExpOk M.ex) {a : List Char} {n : Nat} (ha : Word a) (hv : L.atof a = .fin n) (h0 : 0 < n) (h1 : n ≤ 1000) :
    Fulfils P M L ("blur".toList ++ ' ' :: a) i fun o => o.w = i.w ∧ o.h = i.h ∧ Averaged (gauss n) n i.w i.h i.d o.d := by
  obtain ⟨out, y, av⟩ := blur_gaussian_partial hex p.img (by omega) h0 h1
  refine fulfils_same p hs (.one ⟨by decide, by decide⟩ (by decide) ha) (by dsimp only; decide) (d := out) ⟨rfl, rfl, av⟩ ?_
    (show _ = sameSize i.w i.h (fcv_apply_gaussian_blur P M.ex i.w i.h (.fin n) (some i.d)) by
      simp [apply_operation, stored, p.uw, p.uh, hv])
    (vals_same y)
  obtain ⟨-, -, hl, -⟩ := av
  exact hl

theorem ful_sobel : Fulfils P M L "sobel".toList i (Edges i) := by
  have hmod := P.mod_ge
  have h8 : i.w * i.h * 8 ≤ P.szMax := by
    unfold Plat.szMax
    omega
  have w1 := p.w_int
  have h1 := p.h_int
  obtain ⟨out, y, m, s⟩ := sobel_run (Or.inr rfl) p.img h8
  have m' := edgeMap_congr (fun x hx y hy => codeSq_eq (by omega) (by omega) _ hx hy) m
  have s' := edgeScaled_congr (fun x hx y hy => codeSq_eq (by omega) (by omega) _ hx hy) s
  exact fulfils_same p hs (.bare ⟨by decide, by decide⟩) (by decide) ⟨out, m', s', rfl⟩ (by simp)
    (show _ = sameSize i.w i.h (backToRGBA P i.w i.h (fcv_sobel_edge_detection P i.w i.h 4 (some i.d))) by
      simp [apply_operation, stored, p.uw, p.uh])
    (vals_same (yields_back p m.len y))

theorem ful_flipX : Fulfils P M L "flip_x".toList i (· = ⟨i.w, i.h, Spec.flipX i.w i.h i.d⟩) :=
  fulfils_same p hs (.bare ⟨by decide, by decide⟩) (by dsimp only; decide) rfl (by simp [Spec.flipX])
    (show _ = sameSize i.w i.h (fcv_flip_x P i.w i.h (some i.d)) by simp [apply_operation, stored, p.uw, p.uh])
    (vals_same (flip_x_correct p.img))

theorem ful_flipY : Fulfils P M L "flip_y".toList i (· = ⟨i.w, i.h, Spec.flipY i.w i.h i.d⟩) :=
  fulfils_same p hs (.bare ⟨by decide, by decide⟩) (by dsimp only; decide) rfl (by simp [Spec.flipY])
    (show _ = sameSize i.w i.h (fcv_flip_y P i.w i.h (some i.d)) by simp [apply_operation, stored, p.uw, p.uh])
    (vals_same (flip_y_correct p.img))

theorem ful_trim : Fulfils P M L "trim".toList i (Trimmed Same i) := by
  have w1 := p.w_int
  have h1 := p.h_int
  obtain ⟨l, r, t, b, hb, y⟩ := trim_correct p.img (by decide) (by omega) (by omega) (by omega)
  have := hb.l_lt
  have := hb.t_lt
  have : (r - l) * (b - t) ≤ i.w * i.h := Nat.mul_le_mul (by have := hb.r_le; omega) (by have := hb.b_le; omega)
  exact fulfils_of (.bare ⟨by decide, by decide⟩) (by decide) ⟨l, r, t, b, hb, rfl⟩ (by dsimp only; omega) (by dsimp only; omega)
    (by simp [Spec.crop]) (by dsimp only; omega)
    (show _ = fcv_trim P i.w i.h 4 (some i.d) by simp [apply_operation, stored, trimOp])
    (vals_trims y)

theorem ful_trimBy {a : List Char} {n : Nat} (ha : Word a) (hx : 'x' ∉ a) (hlen : a.length ≤ 63) (hv : L.atof a = .fin n) (hn : n ≤ 100) :
    Fulfils P M L ("trim".toList ++ ' ' :: a) i (Trimmed (Within (n * 255 / 100)) i) := by
  have w1 := p.w_int
  have h1 := p.h_int
  obtain ⟨tol, e, et⟩ := trim_tolerance_int n hn
  obtain ⟨l, r, t, b, hb, y⟩ := trim_threshold_correct p.img (by decide) (by omega) (by omega) (by omega) e
  rw [et] at hb
  have := hb.l_lt
  have := hb.t_lt
  have : (r - l) * (b - t) ≤ i.w * i.h := Nat.mul_le_mul (by have := hb.r_le; omega) (by have := hb.b_le; omega)
  have ht : a.take 63 = a := List.take_of_length_le hlen
  by_cases hp : '%' ∈ a
  · exact fulfils_of (.text (Or.inr ⟨rfl, hp⟩) ha) (by dsimp only; decide) ⟨l, r, t, b, hb, rfl⟩ (by dsimp only; omega) (by dsimp only; omega)
      (by simp [Spec.crop]) (by dsimp only; omega)
      (show _ = fcv_trim_threshold P i.w i.h 4 (some i.d) (.fin n) by simp [apply_operation, stored, trimOp, ht, hp, hv])
      (vals_trims y)
  · exact fulfils_of (.oneOf (by decide) ha hp hx) (by dsimp only; decide) ⟨l, r, t, b, hb, rfl⟩ (by dsimp only; omega) (by dsimp only; omega)
      (by simp [Spec.crop]) (by dsimp only; omega)
      (show _ = fcv_trim_threshold P i.w i.h 4 (some i.d) (.fin n) by simp [apply_operation, stored, trimOp, hv])
      (vals_trims y)

omit p hs in
theorem barChart_length (f : Nat → Nat → Nat) : (barChart f).length = 256 * 200 * 4 := by
  unfold barChart
  generalize 256 = w, 200 = v, 4 = c
  exact mkImg_length ..

omit hs in
theorem ful_histogram (hn : i.w * i.h * 200 < 4294967296) : Fulfils P M L "histogram".toList i (Charted i) := by
  obtain ⟨m, h1, h2, y⟩ := histogram_correct p.img (by decide) (by omega)
  generalize hD : barChart (fun c v => 200 * histBar (i.w * i.h) 4 i.d c v / m) = D at y
  have hl : D.length = 256 * 200 * 4 := by rw [← hD, barChart_length]
  have hr : Charted i ⟨256, 200, D⟩ := ⟨m, h1, h2, by rw [hD]⟩
  exact fulfils_of (.bare ⟨by decide, by decide⟩) (by decide) hr (by norm_num) (by norm_num) hl (by norm_num)
    (show _ = newSize i.w i.h (fcv_generate_histogram P i.w i.h 4 (some i.d)) by simp [apply_operation, stored, p.uw, p.uh])
    (vals_new y (by omega) (by omega))

theorem ful_rotate {a : List Char} {k : Int} (ha : Word a) (hk : IsI32 (90 * k)) (hv : L.atof a = .fin ((90 * k : Int) : ℚ)) :
    Fulfils P M L ("rotate".toList ++ ' ' :: a) i (· = turned i (k % 4).toNat) := by
  have g := rotate_op_turns (M := M) (L := L) p (op := stored { operation := "rotate".toList, param := L.atof a, has_param := true }) rfl rfl hk hv
  dsimp only at g
  have hd := turned_dims i (k % 4).toNat
  have hl : (turned i (k % 4).toNat).d.length = (turned i (k % 4).toNat).w * (turned i (k % 4).toNat).h * 4 := by
    generalize (k % 4).toNat = j
    cases j with
    | zero => exact p.img.len
    | succ j => simp [turned, quarter, rot90, Nat.mul_comm]
  have hm : (turned i (k % 4).toNat).w * (turned i (k % 4).toNat).h = i.w * i.h := by
    rw [hd.1, hd.2]
    split
    · rfl
    · exact Nat.mul_comm ..
  refine fulfils_of (.one ⟨by decide, by decide⟩ (by decide) ha) (by dsimp only; decide) rfl ?_ ?_ hl (by rw [hm]; omega) rfl (vals_gives g)
  · rw [hd.1]
    split
    · exact p.img.w_pos
    · exact p.img.h_pos
  · rw [hd.2]
    split
    · exact p.img.h_pos
    · exact p.img.w_pos

theorem ful_crop {w h : Nat} {x y : Int} (w0 : 0 < w) (w1 : w ≤ 4294967295) (h0 : 0 < h) (h1 : h ≤ 4294967295) (hx : IsI32 x) (hy : IsI32 y)
    (hxi : x < i.w) (hyi : y < i.h) :
    Fulfils P M L ("crop".toList ++ ' ' :: (Spec.dec w ++ 'x' :: (Spec.dec h ++ (signed x ++ signed y)))) i
        (· = ⟨(clampSpan x w i.w).2, (clampSpan y h i.h).2,
          Spec.crop i.w 4 i.d (clampSpan x w i.w).1 (clampSpan y h i.h).1 (clampSpan x w i.w).2 (clampSpan y h i.h).2⟩) := by
  have g := crop_op_gives (M := M) (L := L) p (op := stored { operation := "crop".toList, param := .fin x, has_param := true, param2 := .fin y, has_param2 := true, param3 := .fin w, has_param3 := true, param4 := .fin h, has_param4 := true }) (x := x) (y := y) (cw := w) (ch := h)
    ⟨rfl, ⟨rfl, rfl, rfl, rfl⟩, rfl, rfl, rfl, rfl, hx, hy, by omega, by omega⟩ w0 h0 hxi hyi
  dsimp only at g
  obtain ⟨⟨a1, a2, a3, a4⟩, g⟩ := g
  have : (clampSpan x w i.w).2 * (clampSpan y h i.h).2 ≤ i.w * i.h := Nat.mul_le_mul (by omega) (by omega)
  exact fulfils_of (.crop w0 w1 h0 h1 hx hy) (by dsimp only; decide) rfl a1 a3 (by simp [Spec.crop]) (by dsimp only; omega) rfl (vals_gives g)

omit hs in
theorem ful_border {color a : List Char} {r g b : UInt8} {n : Nat} (hc : Colour color r g b) (ha : Word a) (hv : L.atof a = .fin n)
    (hn : 0 < n) (hb : (i.w + 2 * n) * (i.h + 2 * n) < 1073741824) :
    Fulfils P M L ("border".toList ++ ' ' :: (color ++ ' ' :: a)) i (Framed r g b n i) := by
  obtain ⟨cw, cl⟩ := colour_word hc
  have hmod := P.mod_ge
  have b1 : i.w + 2 * n ≤ (i.w + 2 * n) * (i.h + 2 * n) := Nat.le_mul_of_pos_right _ (by omega)
  have b2 : i.h + 2 * n ≤ (i.w + 2 * n) * (i.h + 2 * n) := Nat.le_mul_of_pos_left _ (by omega)
  obtain ⟨A, hA, y⟩ := add_border_correct (P := P) p.img (by decide) hn (colour_parse hc) (by omega) (by unfold Plat.szMax; omega)
  have ht : color.take 63 = color := List.take_of_length_le (by omega)
  refine fulfils_of (.border cw ha ?_) (by dsimp only; decide) ⟨A, hA, rfl⟩ (by dsimp only; omega) (by dsimp only; omega)
    (by simp [bordered]) hb
    (show _ = newSize i.w i.h (fcv_add_border P i.w i.h 4 (some color) n (some i.d)) from ?_)
    (vals_new y (by omega) (by omega))
  · rw [hv]
    simpa [Dbl.lt] using hn
  · have : apply_operation P M L i.w i.h (stored { operation := "border".toList, param := L.atof a, has_param := true, param_str := color, has_string_param := true }) i.d = borderOp P i.w i.h (stored { operation := "border".toList, param := L.atof a, has_param := true, param_str := color, has_string_param := true }) i.d := by simp [apply_operation, stored]
    rw [this]
    unfold borderOp
    rw [if_pos ⟨rfl, rfl⟩, show (stored { operation := "border".toList, param := L.atof a, has_param := true, param_str := color, has_string_param := true }).param = .fin (n : ℚ) from hv, use_ok (toU32_nat (by omega)), p.uw, p.uh]
    simp [stored, ht]

theorem ful_morph {name a : List Char} {n : Nat} (hname : Word name) (h1 : name ∉ special) (h2 : name ∉ cornerOps) (ha : Word a)
    (hv : L.atof a = .fin n) (hn : n ≤ 32767) {S : (Nat → Nat → Prop) → Nat → Nat → Prop} {f : List UInt8 → Int → HM (Option (Buf UInt8))}
    (e : apply_operation P M L i.w i.h (stored { operation := name, param := L.atof a, has_param := true }) i.d =
      sameSize i.w i.h (morphOp P i.w i.h (stored { operation := name, param := L.atof a, has_param := true }) i.d f))
    (y : MorphOK P i.w i.h n (gray (i.w * i.h) i.d) →
      Yields (f (gray (i.w * i.h) i.d) n) (binImg i.w i.h (S (White i.w i.h (gray (i.w * i.h) i.d))))) :
    Fulfils P M L (name ++ ' ' :: a) i (Morphed S i) := by
  obtain ⟨o, ho, v⟩ := vals_morph p hs (op := stored { operation := name, param := L.atof a, has_param := true }) hn rfl hv y
  have ho' : o = _ := ho
  refine fulfils_of (.one hname h1 ha) h2 ho ?_ ?_ ?_ ?_ e v
  all_goals rw [ho']
  · exact p.img.w_pos
  · exact p.img.h_pos
  · simp
  · dsimp only
    omega

theorem ful_watershed {ts : List (List Char × List Char)} (hne : ts ≠ []) (hw : ∀ m ∈ ts, Word m.1 ∧ 'x' ∉ m.1 ∧ Word m.2)
    (hl : ([' '].intercalate (ts.map markerText)).length ≤ 63) (hm : MarkersInside i.w i.h (ts.map fun m => (L.atof m.1, L.atof m.2))) :
    Fulfils P M L ("watershed".toList ++ ' ' :: [' '].intercalate (ts.map markerText)) i
        (Segmented (ts.map fun m => (L.atof m.1, L.atof m.2)) i) := by
  have words : ∀ x ∈ ts.map markerText, Word x := by
    intro x hx
    obtain ⟨m, hm, rfl⟩ := List.mem_map.1 hx
    exact marker_word (hw m hm)
  have hne' : ts.map markerText ≠ [] := by simpa using hne
  obtain ⟨s1, s2⟩ := strip_words words hne'
  have hc := count_words words hne'
  rw [List.length_map] at hc
  have hle : ([' '].intercalate (ts.map markerText)).count ' ' ≤ ([' '].intercalate (ts.map markerText)).length := List.count_le_length
  obtain ⟨o, ho, v⟩ := vals_watershed (L := L) p hs hne hw (by omega) hm
    (op := stored { operation := "watershed".toList, param_str := [' '].intercalate (ts.map markerText), has_string_param := true }) rfl
    (by show List.take 63 _ = _; exact List.take_of_length_le hl)
  have ho' := ho
  obtain ⟨A, -, -, -, rfl⟩ := ho'
  exact fulfils_same p hs (.watershed s2 s1) (by dsimp only; decide) ho (by simp [paintRegions])
    (show _ = sameSize i.w i.h (watershedOp P L i.w i.h (stored { operation := "watershed".toList, param_str := [' '].intercalate (ts.map markerText), has_string_param := true }) i.d) by simp [apply_operation, stored]) v

theorem ful_stamp {name color ra x y : List Char} {r g b : UInt8} {ρ cx cy : ℚ} (hname : name ∈ ["circle".toList, "disk".toList])
    (hc : Colour color r g b) (hra : Word ra) (hx : Word x) (hxx : 'x' ∉ x) (hy : Word y) (vr : L.atof ra = .fin ρ) (vx : L.atof x = .fin cx)
    (vy : L.atof y = .fin cy) (h0 : 0 ≤ ρ) (h1 : ρ ≤ 500000000) (hcx : |cx| ≤ 1000000000) (hcy : |cy| ≤ 1000000000)
    {f : Plat → Nat → Nat → Nat → Option (List Char) → Dbl → Dbl → Dbl → List UInt8 → CM (List UInt8)} {O : Int → Int → Int → Prop}
    (hd : Draws f O) {like : (Int → Int → Prop) → Prop} (hlike : like (O (trunc ρ)))
    (e : ∀ op : PipelineOp, op.operation = name → apply_operation P M L i.w i.h op i.d = shapeOnCopy P i.w i.h op i.d (f P i.w i.h 4)) :
    Fulfils P M L (name ++ ' ' :: (color ++ ' ' :: (ra ++ ' ' :: (x ++ 'x' :: y)))) i (Stamped like r g b (trunc cx) (trunc cy) i) := by
  obtain ⟨cw, cl⟩ := colour_word hc
  have w1 := p.w_int
  have h1' := p.h_int
  obtain ⟨A, hA, ed⟩ := hd P i.w i.h 4 i.d color r g b ρ cx cy p.img (by omega) (by omega) (by decide) (colour_parse hc) h0 (by linarith)
    (by norm_num; exact hcx) (by norm_num; exact hcy)
  have hn31 : name.take 31 = name := by
    simp only [List.mem_cons, List.not_mem_nil, or_false] at hname
    rcases hname with rfl | rfl <;> rfl
  have hnc : name ∉ cornerOps := by
    simp only [List.mem_cons, List.not_mem_nil, or_false] at hname
    rcases hname with rfl | rfl <;> decide
  refine fulfils_same p hs (.shape hname cw hra hx hxx hy) hnc ⟨_, hlike, A, hA, rfl⟩ (painted_length ..) (e _ hn31) ?_
  refine vals_shape p hs rfl rfl rfl rfl ?_
  have hstr : (strtok ' ' (stored { operation := name, param := L.atof ra, has_param := true, param2 := L.atof x, has_param2 := true, param3 := L.atof y, has_param3 := true, param_str := (color ++ ' ' :: L.fmt (L.atof x) ++ ' ' :: L.fmt (L.atof y)).take 127, has_string_param := true }).param_str).head? = some color := by
    show (strtok ' ' (List.take 63 (List.take 127 _))).head? = _
    rw [List.append_assoc, List.cons_append]
    exact stored_colour cw cl
  rw [hstr]
  show f P i.w i.h 4 (some color) (L.atof ra) (L.atof x) (L.atof y) i.d = _
  rw [vr, vx, vy]
  exact ed

theorem ful_resize {op : PipelineOp} (hm : Means L.atof L.fmt pc op) (ho : op.operation = "resize".toList) {rx ry : ℚ} (F : Factors i rx ry)
    (hv : ∀ hp : Heap, (∀ k, hp.fails k = false) →
      HOk (resizeFactors L i.w i.h (stored op)) hp fun r h' => r = some (.fin rx, .fin ry) ∧ h'.fails = hp.fails) :
    Fulfils P M L pc i (Rescaled i rx ry) := by
  obtain ⟨o, ho1, hl, v⟩ := vals_resize p hs F hv
  have e1 : o.w = outDim i.w rx := ho1.1
  have e2 : o.h = outDim i.h ry := ho1.2.1
  refine fulfils_of hm (by rw [ho]; decide) ho1 (by rw [e1]; exact F.width) (by rw [e2]; exact F.height) hl (by rw [e1, e2]; exact F.size)
    ?_ v
  have : (stored op).operation = "resize".toList := by show op.operation.take 31 = _; rw [ho]; rfl
  simp [apply_operation, this]

theorem ful_resizeText {t : List Char} (hm : Means L.atof L.fmt pc { operation := "resize".toList, param_str := t, has_string_param := true })
    (hl : t.length ≤ 63) {rx ry : ℚ} (F : Factors i rx ry) (e : textFactors L i.w i.h t = .ok (some (.fin rx, .fin ry))) :
    Fulfils P M L pc i (Rescaled i rx ry) := by
  refine ful_resize p hs hm rfl F (factors_text rfl ?_)
  rw [show (stored { operation := "resize".toList, param_str := t, has_string_param := true }).param_str = t from List.take_of_length_le hl]
  exact e

end

/-- C107: every piece that asks for something is understood as an operation, and unless an allocation fails this operation returns
an image of the kind asked for, in a block of its own. -/
theorem asks_fulfilled (hex : ExpOk M.ex) (p : Picture P i.w i.h i.d) (hs : i.w * i.h < 268435456) (h : Asks L.atof pc i R) :
    Fulfils P M L pc i R := by
  have wp := p.img.w_pos
  have hpos := p.img.h_pos
  cases h with
  | grayscale => exact ful_grayscale p hs
  | threshold => exact ful_threshold p hs
  | bwSmart hn => exact ful_bwSmart p hs hex hn
  | bwSmooth hn => exact ful_bwSmooth p hs hex hn
  | blur h1 h2 h3 h4 => exact ful_blur p hs hex h1 h2 h3 h4
  | resizeBoth h1 h2 h3 h4 h5 =>
    refine ful_resize p hs (.oneOf (by decide) h1 h2 h3) rfl h5 fun hp hf => HOk.pure ⟨?_, rfl⟩
    simp [stored, h4]
  | resize h1 h2 h3 h4 h5 h6 h7 =>
    refine ful_resize p hs (.two ⟨by decide, by decide⟩ (Or.inr ⟨rfl, h3, h4⟩) h1 h2) rfl h7 fun hp hf => HOk.pure ⟨?_, rfl⟩
    simp [stored, h5, h6]
  | resizePct h1 h2 h3 h4 h5 h6 =>
    refine ful_resizeText p hs (.text (Or.inl ⟨rfl, Or.inl h2⟩) h1) h4 h6 ?_
    unfold textFactors
    rw [cutAt_none h3]
    dsimp only
    rw [if_pos h2, h5, div_fin (by norm_num) h6.rep_x]
    rfl
  | @resizePcts _ a b _ _ h1 h2 h3 h4 h5 h6 h7 h8 =>
    refine ful_resizeText p hs (t := a ++ 'x' :: b) (.text (Or.inl ⟨rfl, Or.inl (by simp [h3])⟩)
      (h1.append fun c hc => ?_)) h5 h8 ?_
    · rcases List.mem_cons.1 hc with rfl | hc
      · decide
      · exact h2.2 c hc
    · unfold textFactors
      rw [cutAt_of _ h4]
      dsimp only
      rw [trim_eq, trim_eq, h1.strip, h2.strip, if_pos h3, h6, h7, div_fin (by norm_num) h8.rep_x, ok_bind, div_fin (by norm_num) h8.rep_y]
      rfl
  | @resizeTo _ a b _ _ h1 h2 h3 h4 h5 h6 h7 h8 =>
    refine ful_resizeText p hs (t := a ++ 'x' :: b) (.text (Or.inl ⟨rfl, Or.inr (by simp)⟩)
      (h1.append fun c hc => ?_)) h5 h8 ?_
    · rcases List.mem_cons.1 hc with rfl | hc
      · decide
      · exact h2.2 c hc
    · unfold textFactors
      rw [cutAt_of _ h4]
      dsimp only
      have d1 := div_fin (by exact_mod_cast wp.ne') h8.rep_x
      have d2 := div_fin (by exact_mod_cast hpos.ne') h8.rep_y
      rw [trim_eq, trim_eq, h1.strip, h2.strip, if_neg h3, h6, h7]
      push_cast
      rw [d1, ok_bind, d2]
      rfl
  | sobel => exact ful_sobel p hs
  | circle h1 h2 h3 h4 h5 h6 h7 h8 h9 h10 h11 h12 =>
    obtain ⟨O, hO, sh⟩ := circle_shape
    obtain ⟨s1, s2, s3, s4, s5⟩ := sh _ (trunc_nn h9)
    exact ful_stamp p hs (by decide) h1 h2 h3 h4 h5 h6 h7 h8 h9 h10 h11 h12 hO ⟨⟨s1, s2⟩, s3, s4, s5⟩
      fun op ho => by simp [apply_operation, ho, p.uw, p.uh]
  | disk h1 h2 h3 h4 h5 h6 h7 h8 h9 h10 h11 h12 =>
    obtain ⟨O, hO, sh⟩ := disk_shape
    obtain ⟨-, s2, s3, s4, s5⟩ := sh _ (trunc_nn h9)
    exact ful_stamp p hs (by decide) h1 h2 h3 h4 h5 h6 h7 h8 h9 h10 h11 h12 hO ⟨s2, s3, s4, s5⟩
      fun op ho => by simp [apply_operation, ho, p.uw, p.uh]
  | watershed h1 h2 h3 h4 => exact ful_watershed p hs h1 h2 h3 h4
  | crop h1 h2 h3 h4 h5 h6 h7 h8 => exact ful_crop p hs h1 h2 h3 h4 h5 h6 h7 h8
  | flipX => exact ful_flipX p hs
  | flipY => exact ful_flipY p hs
  | rotate h1 h2 h3 => exact ful_rotate p hs h1 h2 h3
  | trim => exact ful_trim p hs
  | trimBy h1 h2 h3 h4 h5 => exact ful_trimBy p hs h1 h2 h3 h4 h5
  | histogram h1 => exact ful_histogram p h1
  | border h1 h2 h3 h4 h5 => exact ful_border p h1 h2 h3 h4 h5
  | erode h1 h2 h3 =>
    exact ful_morph p hs ⟨by decide, by decide⟩ (by decide) (by decide) h1 h2 h3 (by simp [apply_operation, stored]; rfl) erosion_correct
  | dilate h1 h2 h3 =>
    exact ful_morph p hs ⟨by decide, by decide⟩ (by decide) (by decide) h1 h2 h3 (by simp [apply_operation, stored]; rfl) dilation_correct
  | close h1 h2 h3 =>
    exact ful_morph p hs ⟨by decide, by decide⟩ (by decide) (by decide) h1 h2 h3 (by simp [apply_operation, stored]; rfl) closing_yields
  | «open» h1 h2 h3 =>
    exact ful_morph p hs ⟨by decide, by decide⟩ (by decide) (by decide) h1 h2 h3 (by simp [apply_operation, stored]; rfl) opening_yields

end FlatCV.Props
