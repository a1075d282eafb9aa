import Verif.Spec.Image

namespace FlatCV

theorem idx_lt {x y w h : Nat} (hx : x < w) (hy : y < h) : y * w + x < w * h := by
  calc y * w + x < y * w + w := by omega
    _ = (y + 1) * w := by rw [Nat.add_mul, Nat.one_mul]
    _ ≤ h * w := Nat.mul_le_mul_right _ hy
    _ = w * h := Nat.mul_comm _ _

theorem idx3_lt {x y c w h ch : Nat} (hx : x < w) (hy : y < h) (hc : c < ch) :
    (y * w + x) * ch + c < w * h * ch := by
  have := idx_lt (x := c) (y := y * w + x) (w := ch) (h := w * h) hc (idx_lt hx hy)
  rw [Nat.mul_comm ch] at this
  exact this

/-- Every byte position is some sample. -/
theorem idx3_surj {k w h ch : Nat} (hk : k < w * h * ch) :
    ∃ x y c, x < w ∧ y < h ∧ c < ch ∧ k = (y * w + x) * ch + c := by
  have hch : 0 < ch := by
    rcases Nat.eq_zero_or_pos ch with h0 | h0
    · subst h0; simp at hk
    · exact h0
  have h1 : k / ch < w * h := (Nat.div_lt_iff_lt_mul hch).2 hk
  have hw : 0 < w := by
    rcases Nat.eq_zero_or_pos w with h0 | h0
    · subst h0; simp at h1
    · exact h0
  refine ⟨k / ch % w, k / ch / w, k % ch, Nat.mod_lt _ hw, ?_, Nat.mod_lt _ hch, ?_⟩
  · rw [Nat.div_lt_iff_lt_mul hw, Nat.mul_comm]; exact h1
  · rw [Nat.div_add_mod' (k / ch) w, Nat.div_add_mod' k ch]

theorem idx3_decode {x y c w ch : Nat} (hx : x < w) (hc : c < ch) :
    ((y * w + x) * ch + c) / ch % w = x ∧ ((y * w + x) * ch + c) / ch / w = y ∧
      ((y * w + x) * ch + c) % ch = c := by
  have hch : 0 < ch := by omega
  have hw : 0 < w := by omega
  have e1 : ((y * w + x) * ch + c) / ch = y * w + x := by
    rw [Nat.add_comm, Nat.add_mul_div_right _ _ hch, Nat.div_eq_of_lt hc, Nat.zero_add]
  have e2 : ((y * w + x) * ch + c) % ch = c := by
    rw [Nat.add_comm, Nat.add_mul_mod_self_right, Nat.mod_eq_of_lt hc]
  refine ⟨?_, ?_, e2⟩
  · rw [e1, Nat.add_comm, Nat.add_mul_mod_self_right, Nat.mod_eq_of_lt hx]
  · rw [e1, Nat.add_comm, Nat.add_mul_div_right _ _ hw, Nat.div_eq_of_lt hx, Nat.zero_add]

@[simp] theorem mkImg_length (w h ch : Nat) (f : Nat → Nat → Nat → UInt8) :
    (mkImg w h ch f).length = w * h * ch := by simp [mkImg]

theorem mkImg_getElem? {w h ch : Nat} {f : Nat → Nat → Nat → UInt8} {x y c : Nat}
    (hx : x < w) (hy : y < h) (hc : c < ch) :
    (mkImg w h ch f)[(y * w + x) * ch + c]? = some (f x y c) := by
  have hlt := idx3_lt hx hy hc
  obtain ⟨e1, e2, e3⟩ := idx3_decode (y := y) hx hc
  simp only [mkImg, List.getElem?_map, List.getElem?_range hlt, Option.map_some]
  rw [e1, e2, e3]

theorem px_mkImg {w h ch : Nat} {f : Nat → Nat → Nat → UInt8} {x y c : Nat}
    (hx : x < w) (hy : y < h) (hc : c < ch) :
    px w ch (mkImg w h ch f) x y c = f x y c := by
  simp [px, mkImg_getElem? hx hy hc]

theorem getElem?_px {w h ch : Nat} {d : List UInt8} (hd : d.length = w * h * ch) {x y c : Nat}
    (hx : x < w) (hy : y < h) (hc : c < ch) :
    d[(y * w + x) * ch + c]? = some (px w ch d x y c) := by
  have hlt := idx3_lt hx hy hc
  rw [← hd] at hlt
  simp [px, hlt]

/-- Two images of the same size with equal samples are equal. -/
theorem img_ext {w h ch : Nat} {d e : List UInt8} (hd : d.length = w * h * ch)
    (he : e.length = w * h * ch)
    (hp : ∀ x y c, x < w → y < h → c < ch → px w ch d x y c = px w ch e x y c) : d = e := by
  apply List.ext_getElem?
  intro k
  by_cases hk : k < w * h * ch
  · obtain ⟨x, y, c, hx, hy, hc, rfl⟩ := idx3_surj hk
    rw [getElem?_px hd hx hy hc, getElem?_px he hx hy hc, hp x y c hx hy hc]
  · rw [List.getElem?_eq_none (by omega), List.getElem?_eq_none (by omega)]

theorem mkImg_congr {w h ch : Nat} {f g : Nat → Nat → Nat → UInt8}
    (hp : ∀ x y c, x < w → y < h → c < ch → f x y c = g x y c) :
    mkImg w h ch f = mkImg w h ch g := by
  apply img_ext (mkImg_length ..) (mkImg_length ..)
  intro x y c hx hy hc
  rw [px_mkImg hx hy hc, px_mkImg hx hy hc, hp x y c hx hy hc]

theorem mkImg_px {w h ch : Nat} {d : List UInt8} (hd : d.length = w * h * ch) :
    mkImg w h ch (fun x y c => px w ch d x y c) = d := by
  apply img_ext (mkImg_length ..) hd
  intro x y c hx hy hc
  rw [px_mkImg hx hy hc]

/-! Pixel-index versions. -/

theorem idx2_lt {i c n ch : Nat} (hi : i < n) (hc : c < ch) : i * ch + c < n * ch := by
  have := idx_lt (x := c) (y := i) (w := ch) (h := n) hc hi
  rwa [Nat.mul_comm ch] at this

theorem idx2_surj {k n ch : Nat} (hk : k < n * ch) :
    ∃ i c, i < n ∧ c < ch ∧ k = i * ch + c := by
  have hch : 0 < ch := by
    rcases Nat.eq_zero_or_pos ch with h0 | h0
    · subst h0; simp at hk
    · exact h0
  exact ⟨k / ch, k % ch, (Nat.div_lt_iff_lt_mul hch).2 hk, Nat.mod_lt _ hch,
    (Nat.div_add_mod' k ch).symm⟩

@[simp] theorem mkPx_length (n ch : Nat) (f : Nat → Nat → UInt8) :
    (mkPx n ch f).length = n * ch := by simp [mkPx]

theorem mkPx_getElem? {n ch : Nat} {f : Nat → Nat → UInt8} {i c : Nat}
    (hi : i < n) (hc : c < ch) : (mkPx n ch f)[i * ch + c]? = some (f i c) := by
  have hlt := idx2_lt hi hc
  have hch : 0 < ch := by omega
  simp only [mkPx, List.getElem?_map, List.getElem?_range hlt, Option.map_some]
  rw [Nat.add_comm (i * ch), Nat.add_mul_div_right _ _ hch, Nat.div_eq_of_lt hc, Nat.zero_add,
    Nat.add_mul_mod_self_right, Nat.mod_eq_of_lt hc]

theorem px1_mkPx {n ch : Nat} {f : Nat → Nat → UInt8} {i c : Nat}
    (hi : i < n) (hc : c < ch) : px1 ch (mkPx n ch f) i c = f i c := by
  simp [px1, mkPx_getElem? hi hc]

theorem getElem?_px1 {n ch : Nat} {d : List UInt8} (hd : d.length = n * ch) {i c : Nat}
    (hi : i < n) (hc : c < ch) : d[i * ch + c]? = some (px1 ch d i c) := by
  have hlt := idx2_lt hi hc
  rw [← hd] at hlt
  simp [px1, hlt]

theorem px_ext {n ch : Nat} {d e : List UInt8} (hd : d.length = n * ch)
    (he : e.length = n * ch)
    (hp : ∀ i c, i < n → c < ch → px1 ch d i c = px1 ch e i c) : d = e := by
  apply List.ext_getElem?
  intro k
  by_cases hk : k < n * ch
  · obtain ⟨i, c, hi, hc, rfl⟩ := idx2_surj hk
    rw [getElem?_px1 hd hi hc, getElem?_px1 he hi hc, hp i c hi hc]
  · rw [List.getElem?_eq_none (by omega), List.getElem?_eq_none (by omega)]

theorem mkPx_congr {n ch : Nat} {f g : Nat → Nat → UInt8}
    (hp : ∀ i c, i < n → c < ch → f i c = g i c) : mkPx n ch f = mkPx n ch g := by
  apply px_ext (mkPx_length ..) (mkPx_length ..)
  intro i c hi hc
  rw [px1_mkPx hi hc, px1_mkPx hi hc, hp i c hi hc]

theorem mkPx_px1 {n ch : Nat} {d : List UInt8} (hd : d.length = n * ch) :
    mkPx n ch (fun i c => px1 ch d i c) = d := by
  apply px_ext (mkPx_length ..) hd
  intro i c hi hc
  rw [px1_mkPx hi hc]

/-- The two ways of addressing a pixel agree. -/
theorem px_eq_px1 (w ch : Nat) (d : List UInt8) (x y c : Nat) :
    px w ch d x y c = px1 ch d (y * w + x) c := rfl

theorem map_some_inj {α : Type} {a b : List α} (h : a.map some = b.map some) : a = b :=
  (List.map_inj_right (fun _ _ h => by simpa using h)).1 h

end FlatCV
