/-
The PNG decoder: interlaced images.
-/
import Verif.Lemmas.PngRaw

namespace FlatCV
open Model Png

/-- `t` is `dst` with the samples in `D` replaced by `g`. -/
def Scattered (dst t : Cells Nat) (w h m : Nat) (g : Nat → Nat → Nat → Nat) (D : Nat → Nat → Nat → Prop) : Prop :=
  t.length = dst.length ∧ ∀ X, X < w → ∀ Y, Y < h → ∀ c, c < m →
    (D X Y c → t[(Y * w + X) * m + c]? = some (some (g X Y c))) ∧ (¬ D X Y c → t[(Y * w + X) * m + c]? = dst[(Y * w + X) * m + c]?)

theorem Scattered.congr {dst t : Cells Nat} {w h m : Nat} {g : Nat → Nat → Nat → Nat} {D D' : Nat → Nat → Nat → Prop} (s : Scattered dst t w h m g D)
    (e : ∀ X, X < w → ∀ Y, Y < h → ∀ c, c < m → (D X Y c ↔ D' X Y c)) : Scattered dst t w h m g D' :=
  ⟨s.1, fun X hX Y hY c hc => by
    rw [← e X hX Y hY c hc]
    exact s.2 X hX Y hY c hc⟩

theorem pixel_index_lt {w h m X Y c : Nat} (hX : X < w) (hY : Y < h) (hc : c < m) : (Y * w + X) * m + c < w * h * m := by
  have h1 : (Y + 1) * w ≤ h * w := Nat.mul_le_mul_right w hY
  have h2 : (Y * w + X + 1) * m ≤ w * h * m := Nat.mul_le_mul_right m (by rw [Nat.mul_comm w h]; rw [Nat.add_mul, Nat.one_mul] at h1; omega)
  rw [Nat.add_mul, Nat.one_mul] at h2
  omega

theorem pixel_index_inj {w m X Y c X' Y' c' : Nat} (hX : X < w) (hX' : X' < w) (hc : c < m) (hc' : c' < m)
    (e : (Y * w + X) * m + c = (Y' * w + X') * m + c') : X = X' ∧ Y = Y' ∧ c = c' := by
  have h1 : ((Y * w + X) * m + c) % m = c := by rw [Nat.mul_comm, Nat.mul_add_mod, Nat.mod_eq_of_lt hc]
  have h2 : ((Y' * w + X') * m + c') % m = c' := by rw [Nat.mul_comm, Nat.mul_add_mod, Nat.mod_eq_of_lt hc']
  have h3 : ((Y * w + X) * m + c) / m = Y * w + X := by rw [Nat.mul_comm, Nat.mul_add_div (by omega), Nat.div_eq_of_lt hc, Nat.add_zero]
  have h4 : ((Y' * w + X') * m + c') / m = Y' * w + X' := by rw [Nat.mul_comm, Nat.mul_add_div (by omega), Nat.div_eq_of_lt hc', Nat.add_zero]
  have h5 : Y * w + X = Y' * w + X' := by rw [← h3, ← h4, e]
  have h6 : (Y * w + X) % w = X := by rw [Nat.mul_comm, Nat.mul_add_mod, Nat.mod_eq_of_lt hX]
  have h7 : (Y' * w + X') % w = X' := by rw [Nat.mul_comm, Nat.mul_add_mod, Nat.mod_eq_of_lt hX']
  have h8 : (Y * w + X) / w = Y := by rw [Nat.mul_comm, Nat.mul_add_div (by omega), Nat.div_eq_of_lt hX, Nat.add_zero]
  have h9 : (Y' * w + X') / w = Y' := by rw [Nat.mul_comm, Nat.mul_add_div (by omega), Nat.div_eq_of_lt hX', Nat.add_zero]
  exact ⟨by rw [← h6, ← h7, h5], by rw [← h8, ← h9, h5], by rw [← h1, ← h2, e]⟩

theorem Scattered.step {dst t : Cells Nat} {w h m : Nat} {g : Nat → Nat → Nat → Nat} {D : Nat → Nat → Nat → Prop} (s : Scattered dst t w h m g D)
    (hl : dst.length = w * h * m) {X0 Y0 c0 q v : Nat} (hX : X0 < w) (hY : Y0 < h) (hc : c0 < m) (hq : q = (Y0 * w + X0) * m + c0) (hv : v = g X0 Y0 c0) :
    Ok (wr t q v) fun t' => Scattered dst t' w h m g fun X Y c => D X Y c ∨ (X = X0 ∧ Y = Y0 ∧ c = c0) := by
  subst hq hv
  have hlt := pixel_index_lt (h := h) hX hY hc
  rw [wr_ok (by rw [s.1, hl]; exact hlt)]
  refine Ok.pure ⟨by rw [List.length_set]; exact s.1, fun X hX' Y hY' c hc' => ?_⟩
  rw [List.getElem?_set]
  by_cases e : (Y0 * w + X0) * m + c0 = (Y * w + X) * m + c
  · obtain ⟨rfl, rfl, rfl⟩ := pixel_index_inj hX hX' hc hc' e
    rw [if_pos rfl, if_pos (by rw [s.1, hl]; exact hlt)]
    exact ⟨fun _ => rfl, fun hn => absurd (Or.inr ⟨rfl, rfl, rfl⟩) hn⟩
  · rw [if_neg e]
    obtain ⟨h1, h2⟩ := s.2 X hX' Y hY' c hc'
    refine ⟨fun hD => h1 ?_, fun hD => h2 fun h => hD (Or.inl h)⟩
    rcases hD with hD | ⟨rfl, rfl, rfl⟩
    · exact hD
    · exact absurd rfl e

theorem grid_lt {n o s i : Nat} (hn : 0 < n) (ho : o < s) (hi : i < gridCount n o s) : i * s + o < n := by
  rw [gridCount, Nat.lt_div_iff_mul_lt (by omega)] at hi
  have := Nat.mul_comm i s
  omega

theorem grid_div {n o s X : Nat} (ho : o < s) (hX : X < n) (e : X % s = o) : X / s < gridCount n o s := by
  rw [gridCount, Nat.lt_div_iff_mul_lt (by omega)]
  have := Nat.div_add_mod X s
  have h2 := Nat.mul_comm (X / s) s
  omega

theorem grid_mod {o s i : Nat} (ho : o < s) : (i * s + o) % s = o ∧ (i * s + o) / s = i :=
  ⟨by rw [Nat.mul_comm, Nat.mul_add_mod, Nat.mod_eq_of_lt ho], by rw [Nat.mul_comm, Nat.mul_add_div (by omega), Nat.div_eq_of_lt ho, Nat.add_zero]⟩

theorem grid_eq {o s i X : Nat} (ho : o < s) : X = i * s + o ↔ X % s = o ∧ X / s = i := by
  constructor
  · rintro rfl
    exact grid_mod ho
  · rintro ⟨h1, h2⟩
    have := Nat.div_add_mod X s
    rw [Nat.mul_comm, h1, h2] at this
    exact this.symm

theorem spread_ok {src dst : Cells Nat} {w h m xo yo xs ys : Nat} {g : Nat → Nat → Nat → Nat} (hw : 0 < w) (hh : 0 < h) (hxo : xo < xs) (hyo : yo < ys)
    (hl : dst.length = w * h * m)
    (hs : ∀ i, i < gridCount w xo xs → ∀ j, j < gridCount h yo ys → ∀ c, c < m → src[(j * gridCount w xo xs + i) * m + c]? = some (some (g i j c))) :
    Ok (spread w m (gridCount w xo xs) (gridCount h yo ys) xo yo xs ys src dst) fun t =>
      Scattered dst t w h m (fun X Y => g (X / xs) (Y / ys)) fun X Y _ => X % xs = xo ∧ Y % ys = yo := by
  rw [spread]
  refine (forN_ok (I := fun j t => Scattered dst t w h m (fun X Y => g (X / xs) (Y / ys)) fun X Y _ => X % xs = xo ∧ Y % ys = yo ∧ Y / ys < j)
    ⟨rfl, fun X hX Y hY c hc => ⟨fun hD => absurd hD.2.2 (Nat.not_lt_zero _), fun _ => rfl⟩⟩ ?_).mono ?_
  · intro j hj t hI
    refine (forN_ok (I := fun i t => Scattered dst t w h m (fun X Y => g (X / xs) (Y / ys)) fun X Y _ =>
      X % xs = xo ∧ Y % ys = yo ∧ (Y / ys < j ∨ (Y / ys = j ∧ X / xs < i))) (hI.congr fun X hX Y hY c hc => ?_) ?_).mono ?_
    · simp only [Nat.not_lt_zero, and_false, or_false]
    · intro i hi t hI
      refine (forN_ok (I := fun k t => Scattered dst t w h m (fun X Y => g (X / xs) (Y / ys)) fun X Y c =>
        X % xs = xo ∧ Y % ys = yo ∧ (Y / ys < j ∨ (Y / ys = j ∧ (X / xs < i ∨ (X / xs = i ∧ c < k))))) (hI.congr fun X hX Y hY c hc => ?_) ?_).mono ?_
      · simp only [Nat.not_lt_zero, and_false, or_false]
      · intro c hc t hI
        rw [rd_ok (hs i hi j hj c hc), ok_bind]
        refine (hI.step hl (grid_lt hw hxo hi) (grid_lt hh hyo hj) hc (by ring) ?_).mono ?_
        · simp only [(grid_mod hxo (i := i)).2, (grid_mod hyo (i := j)).2]
        · intro t' ht'
          refine ht'.congr fun X hX Y hY c' hc' => ?_
          rw [grid_eq hxo, grid_eq hyo]
          constructor
          · rintro (⟨h1, h2, h3⟩ | ⟨⟨h1, h2⟩, ⟨h3, h4⟩, rfl⟩)
            · exact ⟨h1, h2, by omega⟩
            · exact ⟨h1, h3, by omega⟩
          · rintro ⟨h1, h2, h3⟩
            by_cases hb : X / xs = i ∧ Y / ys = j ∧ c' = c
            · exact Or.inr ⟨⟨h1, hb.1⟩, ⟨h2, hb.2.1⟩, hb.2.2⟩
            · exact Or.inl ⟨h1, h2, by omega⟩
      · intro t' ht'
        refine ht'.congr fun X hX Y hY c hc => ?_
        constructor
        · rintro ⟨h1, h2, h3⟩
          exact ⟨h1, h2, by omega⟩
        · rintro ⟨h1, h2, h3⟩
          exact ⟨h1, h2, by omega⟩
    · intro t' ht'
      refine ht'.congr fun X hX Y hY c hc => ?_
      constructor
      · rintro ⟨h1, h2, h3⟩
        exact ⟨h1, h2, by omega⟩
      · rintro ⟨h1, h2, h3⟩
        have := grid_div hxo hX h1
        exact ⟨h1, h2, by omega⟩
  · intro t' ht'
    refine ht'.congr fun X hX Y hY c hc => ?_
    constructor
    · rintro ⟨h1, h2, h3⟩
      exact ⟨h1, h2⟩
    · rintro ⟨h1, h2⟩
      have := grid_div hyo hY h2
      exact ⟨h1, h2, by omega⟩

/-! ### The passes -/

/-- A pass, for any combination of depth and channels. -/
def lpass (depth n w h : Nat) (l : List UInt8) : Option (Samples × List UInt8) :=
  (unfilterRows (filterBytes depth n) (rowBytes depth n w) h (List.replicate (rowBytes depth n w) 0) l).map fun r =>
    (fun x y c => sampleAt depth (r.1.getD y []) (x * n + c), r.2)

/-- The passes, for any combination of depth and channels. -/
def lpasses (depth n w h : Nat) : List (Nat × Nat × Nat × Nat) → List UInt8 → Option (List Samples × List UInt8)
  | [], l => some ([], l)
  | (xo, yo, xs, ys) :: g, l =>
    (if gridCount w xo xs = 0 ∨ gridCount h yo ys = 0 then some ((fun _ _ _ => 0), l) else lpass depth n (gridCount w xo xs) (gridCount h yo ys) l).bind fun r =>
      (lpasses depth n w h g r.2).map fun q => (r.1 :: q.1, q.2)

/-- What is storedV for the pixel in a column and row. -/
def pixV (depth color n : Nat) (S : Samples) (x y c : Nat) : Nat := if c < n then storedV depth color (S x y c) else opaque' depth

theorem pass_grid {p : Nat} (hp : p < 7) :
    ∃ xo yo xs ys, passGrid.drop p = (xo, yo, xs, ys) :: passGrid.drop (p + 1) ∧ passGrid.getD p (0, 0, 1, 1) = (xo, yo, xs, ys) ∧ rdIn pngXorig p = .ok xo ∧ rdIn pngYorig p = .ok yo ∧
      rdIn pngXspc p = .ok xs ∧ rdIn pngYspc p = .ok ys ∧ xo < xs ∧ yo < ys ∧ xs ≤ 8 ∧ ys ≤ 8 ∧
      ∀ X Y, (X % xs = xo ∧ Y % ys = yo ↔ passOf X Y = p) := by
  have red : ∀ xo yo xs ys, xs ∣ 8 → ys ∣ 8 → (∀ X, X < 8 → ∀ Y, Y < 8 → (X % xs = xo ∧ Y % ys = yo ↔ passOf X Y = p)) →
      ∀ X Y, (X % xs = xo ∧ Y % ys = yo ↔ passOf X Y = p) := by
    intro xo yo xs ys h1 h2 h3 X Y
    have := h3 (X % 8) (Nat.mod_lt _ (by omega)) (Y % 8) (Nat.mod_lt _ (by omega))
    rw [Nat.mod_mod_of_dvd _ h1, Nat.mod_mod_of_dvd _ h2] at this
    rw [this, passOf, passOf, Nat.mod_mod, Nat.mod_mod]
  match p, hp, red with
  | 0, _, red => exact ⟨0, 0, 8, 8, rfl, rfl, rfl, rfl, rfl, rfl, by omega, by omega, by omega, by omega, red _ _ _ _ (by decide) (by decide) (by decide)⟩
  | 1, _, red => exact ⟨4, 0, 8, 8, rfl, rfl, rfl, rfl, rfl, rfl, by omega, by omega, by omega, by omega, red _ _ _ _ (by decide) (by decide) (by decide)⟩
  | 2, _, red => exact ⟨0, 4, 4, 8, rfl, rfl, rfl, rfl, rfl, rfl, by omega, by omega, by omega, by omega, red _ _ _ _ (by decide) (by decide) (by decide)⟩
  | 3, _, red => exact ⟨2, 0, 4, 4, rfl, rfl, rfl, rfl, rfl, rfl, by omega, by omega, by omega, by omega, red _ _ _ _ (by decide) (by decide) (by decide)⟩
  | 4, _, red => exact ⟨0, 2, 2, 4, rfl, rfl, rfl, rfl, rfl, rfl, by omega, by omega, by omega, by omega, red _ _ _ _ (by decide) (by decide) (by decide)⟩
  | 5, _, red => exact ⟨1, 0, 2, 2, rfl, rfl, rfl, rfl, rfl, rfl, by omega, by omega, by omega, by omega, red _ _ _ _ (by decide) (by decide) (by decide)⟩
  | 6, _, red => exact ⟨0, 1, 1, 2, rfl, rfl, rfl, rfl, rfl, rfl, by omega, by omega, by omega, by omega, red _ _ _ _ (by decide) (by decide) (by decide)⟩

theorem passOf_lt (X Y : Nat) : passOf X Y < 7 := by
  have : ∀ X, X < 8 → ∀ Y, Y < 8 → passOf X Y < 7 := by decide
  have := this (X % 8) (Nat.mod_lt _ (by omega)) (Y % 8) (Nat.mod_lt _ (by omega))
  rwa [passOf, Nat.mod_mod, Nat.mod_mod] at this

theorem gridCount_le {n o s : Nat} (hn : 0 < n) (ho : o < s) : gridCount n o s ≤ n := by
  by_contra h
  have := grid_lt hn ho (show n < gridCount n o s by omega)
  have h2 := Nat.le_mul_of_pos_right n (show 0 < s by omega)
  omega

theorem rowBytes_mono {depth n x x' : Nat} (h : x ≤ x') : rowBytes depth n x ≤ rowBytes depth n x' := by
  have := Nat.mul_le_mul_right depth (Nat.mul_le_mul_left n h)
  rw [rowBytes, rowBytes]
  omega

theorem RawFits.mono {n outN x y x' y' depth : Nat} (f : RawFits n outN x y depth) (hx : x' ≤ x) (hy : y' ≤ y) : RawFits n outN x' y' depth := by
  obtain ⟨h1, h2, h3, h4⟩ := f
  have g1 := Nat.mul_le_mul_right (outN * sampleBytes depth) (Nat.mul_le_mul hx hy)
  have g2 := Nat.mul_le_mul_right depth (Nat.mul_le_mul_left n hx)
  have g3 := rowBytes_mono (depth := depth) (n := n) hx
  have g4 := Nat.mul_le_mul g3 hy
  exact ⟨by omega, by omega, by omega, by omega⟩

theorem lpass_length {depth n w h : Nat} {l rest : List UInt8} {S : Samples} (e : lpass depth n w h l = some (S, rest)) :
    rest = l.drop (h * (rowBytes depth n w + 1)) ∧ h * (rowBytes depth n w + 1) ≤ l.length := by
  rw [lpass, Option.map_eq_some_iff] at e
  obtain ⟨⟨rows, rest'⟩, h1, h2⟩ := e
  obtain ⟨_, rfl⟩ := Prod.mk.inj h2
  exact ⟨(unfilterRows_length h1).1, (unfilterRows_length h1).2.1⟩

/-- `create_raw_ok` in terms of samples. -/
theorem create_raw_pix {m : PngMem} {p : Nat} {raw : Cells UInt8} {l : List UInt8} {pos n outN x y depth color : Nat} (hd : depth ∈ [1, 2, 4, 8, 16]) (hn0 : 0 < n) (hx : 0 < x)
    (hy : y ≤ 16777216) (hn : outN = n ∨ (outN = n + 1 ∧ (n = 1 ∨ n = 3))) (hraw : ∀ k, k < l.length → raw[pos + k]? = some (some (l.getD k 0))) :
    Ok (create_png_image_raw m p raw pos l.length n outN x y depth color) fun r =>
      (∀ t, r = some t → ∃ S rest, lpass depth n x y l = some (S, rest) ∧ t.length = x * y * outN ∧
        (∀ i, i < x → ∀ j, j < y → ∀ c, c < outN → t[(j * x + i) * outN + c]? = some (some (pixV depth color n S i j c))) ∧ (x * y * outN) * sampleBytes depth ≤ 2147483647) ∧
      (r = none → m.out p = true → m.filter p = true → RawFits n outN x y depth → lpass depth n x y l = none) := by
  refine (create_raw_ok (m := m) (p := p) (color := color) hd hn0 hx hy hn hraw).mono ?_
  rintro r ⟨h1, h2⟩
  refine ⟨fun t ht => ?_, fun e a b c => by rw [lpass, h2 e a b c]; rfl⟩
  obtain ⟨rows, rest, g1, ⟨g2, g3⟩, g4⟩ := h1 t ht
  refine ⟨_, _, by rw [lpass, g1]; rfl, g2, fun i hi j hj c hc => ?_, g4⟩
  have hlt := pixel_index_lt (m := 1) (c := 0) (h := y) hi hj (by omega)
  rw [Nat.mul_one, Nat.mul_one, Nat.add_zero] at hlt
  rw [g3 (j * x + i) hlt c hc, rowsPixel, rowPixel, pixV]
  have e1 : (j * x + i) / x = j := by rw [Nat.mul_comm, Nat.mul_add_div hx, Nat.div_eq_of_lt hi, Nat.add_zero]
  have e2 : (j * x + i) % x = i := by rw [Nat.mul_comm, Nat.mul_add_mod, Nat.mod_eq_of_lt hi]
  rw [e1, e2]

theorem passes_ok {m : PngMem} {raw : Cells UInt8} {n outN w h depth color : Nat} (hd : depth ∈ [1, 2, 4, 8, 16]) (hn0 : 0 < n) (hw : 0 < w) (hh : 0 < h) (hw' : w ≤ 16777216)
    (hh' : h ≤ 16777216) (hn : outN = n ∨ (outN = n + 1 ∧ (n = 1 ∨ n = 3))) (k : Nat) (p : Nat) (s : PassState) (l : List UInt8) (hk : p + k = 7) (hok : s.ok = true)
    (hlen : s.len = l.length) (hraw : ∀ i, i < l.length → raw[s.pos + i]? = some (some (l.getD i 0))) (hf : s.final.length = w * h * outN) :
    Ok (forBreak k p s (passStep m raw w h n outN depth color)) fun s' =>
      (s'.ok = true → ∃ Ss rest, lpasses depth n w h (passGrid.drop p) l = some (Ss, rest) ∧ s'.final.length = w * h * outN ∧
        ∀ X, X < w → ∀ Y, Y < h → ∀ c, c < outN → s'.final[(Y * w + X) * outN + c]? =
          if passOf X Y < p then s.final[(Y * w + X) * outN + c]?
          else some (some (pixV depth color n (Ss.getD (passOf X Y - p) fun _ _ _ => 0) (X / (passGrid.getD (passOf X Y) (0, 0, 1, 1)).2.2.1) (Y / (passGrid.getD (passOf X Y) (0, 0, 1, 1)).2.2.2) c))) ∧
      (s'.ok = false → (∀ q, m.out q = true) → (∀ q, m.filter q = true) → RawFits n outN w h depth → lpasses depth n w h (passGrid.drop p) l = none) := by
  induction k generalizing p s l with
  | zero =>
    obtain rfl : p = 7 := by omega
    refine Ok.pure ⟨fun _ => ⟨[], l, rfl, hf, fun X hX Y hY c hc => ?_⟩, fun e => by rw [hok] at e; cases e⟩
    rw [if_pos (passOf_lt X Y)]
  | succ k ih =>
    obtain ⟨xo, yo, xs, ys, hg, hgp, r1, r2, r3, r4, hxo, hyo, hxs, hys, hpo⟩ := pass_grid (show p < 7 by omega)
    rw [forBreak, passStep, r1, ok_bind, r2, ok_bind, r3, ok_bind, r4, ok_bind]
    have hx : u32sub (w + xs - 1) xo / xs = gridCount w xo xs := by
      rw [gridCount, u32sub_eq (by omega) (by omega)]
    have hy : u32sub (h + ys - 1) yo / ys = gridCount h yo ys := by
      rw [gridCount, u32sub_eq (by omega) (by omega)]
    rw [hx, hy]
    have hgx := gridCount_le hw hxo
    have hgy := gridCount_le hh hyo
    have hsplit : ∀ X Y, ¬ passOf X Y < p → ¬ passOf X Y < p + 1 → passOf X Y - p = (passOf X Y - (p + 1)) + 1 := by intros; omega
    have heq : ∀ X Y, ¬ passOf X Y < p → passOf X Y < p + 1 → passOf X Y = p := by intros; omega
    by_cases hz : gridCount w xo xs ≠ 0 ∧ gridCount h yo ys ≠ 0
    · rw [if_pos hz]
      simp only [hlen]
      rw [bind_assoc]
      refine Ok.bind (create_raw_pix (m := m) (p := p) (color := color) hd hn0 (show 0 < gridCount w xo xs by omega) (show gridCount h yo ys ≤ 16777216 by omega) hn hraw) ?_
      intro r hr
      cases r with
      | none =>
        refine Ok.pure ⟨fun e => (by cases e), fun _ h1 h2 h3 => ?_⟩
        rw [hg, lpasses, if_neg (by omega), hr.2 rfl (h1 p) (h2 p) (h3.mono hgx hgy)]
        rfl
      | some t =>
        obtain ⟨S, rest, g1, g2, g3, g4⟩ := hr.1 t rfl
        simp only
        rw [bind_assoc]
        refine Ok.bind (spread_ok (src := t) (dst := s.final) (m := outN) (g := pixV depth color n S) hw hh hxo hyo hf g3) ?_
        intro f hf'
        obtain ⟨l1, l2⟩ := lpass_length g1
        have hil : ((n * gridCount w xo xs * depth + 7) / 8 + 1) * gridCount h yo ys = gridCount h yo ys * (rowBytes depth n (gridCount w xo xs) + 1) := Nat.mul_comm _ _
        rw [hil]
        simp only [pure_bind', Bool.false_eq_true, if_false]
        have hl3 : l.length - gridCount h yo ys * (rowBytes depth n (gridCount w xo xs) + 1) = rest.length := by rw [l1, List.length_drop]
        refine (ih (p + 1) ⟨true, f, s.pos + gridCount h yo ys * (rowBytes depth n (gridCount w xo xs) + 1), l.length - gridCount h yo ys * (rowBytes depth n (gridCount w xo xs) + 1)⟩ rest
          (by omega) rfl hl3 (fun i hi => ?_) (by show f.length = _; rw [hf'.1, hf])).mono ?_
        · rw [l1, List.length_drop] at hi
          show raw[s.pos + gridCount h yo ys * (rowBytes depth n (gridCount w xo xs) + 1) + i]? = _
          rw [Nat.add_assoc, hraw _ (by omega), l1, List.getD_eq_getElem?_getD, List.getD_eq_getElem?_getD, List.getElem?_drop]
        · rintro s' ⟨q1, q2⟩
          refine ⟨fun e => ?_, fun e h1 h2 h3 => ?_⟩
          · obtain ⟨Ss, rest', a1, a2, a3⟩ := q1 e
            refine ⟨S :: Ss, rest', ?_, a2, fun X hX Y hY c hc => ?_⟩
            · rw [hg, lpasses, if_neg (by omega), g1]
              simp only [Option.bind_some]
              rw [a1]
              rfl
            · rw [a3 X hX Y hY c hc]
              obtain ⟨b1, b2⟩ := hf'.2 X hX Y hY c hc
              by_cases c1 : passOf X Y < p
              · rw [if_pos c1, if_pos (by omega)]
                exact b2 fun hh => by
                  have := (hpo X Y).1 hh
                  omega
              · rw [if_neg c1]
                by_cases c2 : passOf X Y < p + 1
                · have e' := heq X Y c1 c2
                  rw [if_pos c2]
                  show f[_]? = _
                  rw [b1 ((hpo X Y).2 e'), e', hgp, Nat.sub_self]
                  rfl
                · rw [if_neg c2, hsplit X Y c1 c2, List.getD_cons_succ]
          · rw [hg, lpasses, if_neg (by omega), g1]
            simp only [Option.bind_some]
            rw [q2 e h1 h2 h3]
            rfl
    · rw [if_neg hz, pure_bind']
      simp only [Bool.false_eq_true, if_false]
      refine (ih (p + 1) s l (by omega) hok hlen hraw hf).mono ?_
      rintro s' ⟨q1, q2⟩
      refine ⟨fun e => ?_, fun e h1 h2 h3 => ?_⟩
      · obtain ⟨Ss, rest', a1, a2, a3⟩ := q1 e
        refine ⟨(fun _ _ _ => 0) :: Ss, rest', ?_, a2, fun X hX Y hY c hc => ?_⟩
        · rw [hg, lpasses, if_pos (by omega)]
          simp only [Option.bind_some]
          rw [a1]
          rfl
        · rw [a3 X hX Y hY c hc]
          by_cases c1 : passOf X Y < p
          · rw [if_pos c1, if_pos (by omega)]
          · rw [if_neg c1]
            by_cases c2 : passOf X Y < p + 1
            · exfalso
              obtain ⟨e1, e2⟩ := (hpo X Y).2 (heq X Y c1 c2)
              have h1 := Nat.zero_lt_of_lt (grid_div hxo hX e1)
              have h2 := Nat.zero_lt_of_lt (grid_div hyo hY e2)
              omega
            · rw [if_neg c2, hsplit X Y c1 c2, List.getD_cons_succ]
      · rw [hg, lpasses, if_pos (by omega)]
        simp only [Option.bind_some]
        rw [q2 e h1 h2 h3]
        rfl

/-- The samples of an image, for any combination of depth and channels; data after them is ignored. -/
def lread (depth n w h interlace : Nat) (l : List UInt8) : Option Samples :=
  if interlace = 0 then (lpass depth n w h l).map Prod.fst
  else (lpasses depth n w h passGrid l).map fun r x y c =>
    r.1.getD (passOf x y) (fun _ _ _ => 0) (x / (passGrid.getD (passOf x y) (0, 0, 1, 1)).2.2.1) (y / (passGrid.getD (passOf x y) (0, 0, 1, 1)).2.2.2) c

theorem create_image_ok {m : PngMem} {raw : Cells UInt8} {l : List UInt8} {n outN w h depth color interlace : Nat} (hd : depth ∈ [1, 2, 4, 8, 16]) (hn0 : 0 < n) (hw : 0 < w)
    (hh : 0 < h) (hw' : w ≤ 16777216) (hh' : h ≤ 16777216) (hn : outN = n ∨ (outN = n + 1 ∧ (n = 1 ∨ n = 3)))
    (hraw : ∀ k, k < l.length → raw[k]? = some (some (l.getD k 0))) :
    Ok (create_png_image m raw l.length n outN w h depth color interlace) fun r =>
      (∀ t, r = some t → ∃ S, lread depth n w h interlace l = some S ∧ t.length = w * h * outN ∧ (w * h * outN) * sampleBytes depth ≤ 2147483647 ∧
        ∀ i, i < w → ∀ j, j < h → ∀ c, c < outN → t[(j * w + i) * outN + c]? = some (some (pixV depth color n S i j c))) ∧
      (r = none → m.final = true → (∀ q, m.out q = true) → (∀ q, m.filter q = true) → RawFits n outN w h depth → lread depth n w h interlace l = none) := by
  rw [create_png_image]
  by_cases hi : interlace = 0
  · rw [if_pos hi]
    refine (create_raw_pix (m := m) (p := 0) (pos := 0) (color := color) hd hn0 hw hh' hn (fun k hk => by rw [Nat.zero_add]; exact hraw k hk)).mono ?_
    rintro r ⟨h1, h2⟩
    refine ⟨fun t ht => ?_, fun e _ a b c => by rw [lread, if_pos hi, h2 e (a 0) (b 0) c]; rfl⟩
    obtain ⟨S, rest, g1, g2, g3, g4⟩ := h1 t ht
    exact ⟨S, by rw [lread, if_pos hi, g1]; rfl, g2, g4, g3⟩
  · rw [if_neg hi]
    have hB : (if depth = 16 then 2 else 1) = sampleBytes depth := rfl
    have hB0 : 0 < sampleBytes depth := by rw [sampleBytes]; split_ifs <;> omega
    simp only [hB]
    by_cases c1 : (!(mad3ok w h (outN * sampleBytes depth) 0 && m.final)) = true
    · rw [if_pos c1]
      refine Ok.pure' ⟨fun t ht => (by cases ht), fun _ h1 h2 h3 h4 => ?_⟩
      rw [mad3ok_of (Nat.mul_pos (by omega) hB0) (by have := h4.1; omega), h1] at c1
      cases c1
    rw [if_neg c1]
    have hle2 : w * h * (outN * sampleBytes depth) ≤ 2147483647 := by
      refine mad3ok_le (add := 0) ?_
      simp only [Bool.not_eq_true, Bool.not_eq_false', Bool.and_eq_true] at c1
      exact c1.1
    rw [← Nat.mul_assoc] at hle2
    refine Ok.bind (passes_ok (m := m) (color := color) hd hn0 hw hh hw' hh' hn 7 0 ⟨true, List.replicate (w * h * outN) none, 0, l.length⟩ l rfl rfl rfl
      (fun k hk => by show raw[0 + k]? = _; rw [Nat.zero_add]; exact hraw k hk) (by simp)) ?_
    rintro s ⟨q1, q2⟩
    refine Ok.pure' ⟨fun t ht => ?_, fun e h1 h2 h3 h4 => ?_⟩
    · split_ifs at ht with hs
      obtain rfl := Option.some.inj ht
      obtain ⟨Ss, rest, a1, a2, a3⟩ := q1 hs
      refine ⟨_, by rw [lread, if_neg hi, show passGrid = passGrid.drop 0 from rfl, a1]; rfl, a2, hle2, fun i hi' j hj c hc => ?_⟩
      rw [a3 i hi' j hj c hc, if_neg (by omega), Nat.sub_zero]
      rfl
    · split_ifs at e with hs
      rw [lread, if_neg hi, show passGrid = passGrid.drop 0 from rfl, q2 (by simpa using hs) h2 h3 h4]
      rfl

end FlatCV
