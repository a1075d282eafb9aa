import Verif.Model.Geometry
import Verif.Spec.Geometry
import Verif.Lemmas.Image
import Verif.Lemmas.Mem

namespace FlatCV
open Model

theorem idx4_eq (P : Plat) {a n b m : Nat} (hb : b < n) (ha : a < m)
    (hsz : n * m * 4 ≤ P.szMax) : idx4 P a n b = (a * n + b) * 4 := by
  have h1 := idx_lt (x := b) (y := a) (w := n) (h := m) hb ha
  unfold idx4
  rw [P.sz_eq' (n := a * n) (by omega), P.sz_eq' (n := a * n + b) (by omega),
    P.sz_eq' (by omega)]

theorem copy4_filled (P : Plat) {d out : List UInt8} {W : Nat → Prop} {s : Cells UInt8}
    {src dst : Nat} (hs : Filled out W s) (hsrc : src + 4 ≤ d.length)
    (hdl : d.length ≤ P.szMax) (hol : out.length ≤ P.szMax)
    (hdst : dst + 4 ≤ out.length)
    (hv : ∀ c, c < 4 → out[dst + c]? = d[src + c]?) :
    Ok (copy4 P d src s dst) (Filled out (fun k => W k ∨ ∃ c, c < 4 ∧ k = dst + c)) := by
  have e : ∀ c, c < 4 → ∃ v, d[src + c]? = some v := fun c hc =>
    ⟨d[src + c], List.getElem?_eq_getElem (by omega)⟩
  obtain ⟨v0, e0⟩ := e 0 (by omega)
  obtain ⟨v1, e1⟩ := e 1 (by omega)
  obtain ⟨v2, e2⟩ := e 2 (by omega)
  obtain ⟨v3, e3⟩ := e 3 (by omega)
  unfold copy4
  rw [P.sz_eq' (n := src + 1) (by omega), P.sz_eq' (n := src + 2) (by omega),
    P.sz_eq' (n := src + 3) (by omega), P.sz_eq' (n := dst + 1) (by omega),
    P.sz_eq' (n := dst + 2) (by omega), P.sz_eq' (n := dst + 3) (by omega),
    rdIn_ok (i := src) e0, rdIn_ok e1, rdIn_ok e2, rdIn_ok e3]
  simp only [ok_bind]
  refine Ok.bind (hs.wr (k := dst) (v := v0) (by rw [← e0]; exact hv 0 (by omega))) fun s1 h1 => ?_
  refine Ok.bind (h1.wr (k := dst + 1) (v := v1) (by rw [← e1]; exact hv 1 (by omega)))
    fun s2 h2 => ?_
  refine Ok.bind (h2.wr (k := dst + 2) (v := v2) (by rw [← e2]; exact hv 2 (by omega)))
    fun s3 h3 => ?_
  refine (h3.wr (k := dst + 3) (v := v3) (by rw [← e3]; exact hv 3 (by omega))).mono
    fun s4 h4 => h4.mono ?_
  rintro k _ (h | ⟨c, hc, rfl⟩)
  · exact Or.inl (Or.inl (Or.inl (Or.inl h)))
  · have : c = 0 ∨ c = 1 ∨ c = 2 ∨ c = 3 := by omega
    rcases this with rfl | rfl | rfl | rfl
    · exact Or.inl (Or.inl (Or.inl (Or.inr rfl)))
    · exact Or.inl (Or.inl (Or.inr rfl))
    · exact Or.inl (Or.inr rfl)
    · exact Or.inr rfl

/-- Correctness of the common loop nest: `dst y x` is the byte index of pixel
`(tx x y, ty x y)` of the `nw × nh` result, and that map is onto with inverse `(sx, sy)`. -/
theorem remap_returns (P : Plat) (w h : Nat) (d : List UInt8) (hp : Heap)
    (hw : 0 < w) (hh : 0 < h) (hd : d.length = w * h * 4) (hsz : w * h * 4 ≤ P.szMax)
    (dst : Nat → Nat → Nat) (nw nh : Nat) (tx ty sx sy : Nat → Nat → Nat)
    (hn : nw * nh = w * h)
    (ht : ∀ x y, x < w → y < h → tx x y < nw ∧ ty x y < nh ∧
      dst y x = (ty x y * nw + tx x y) * 4)
    (hs : ∀ x y, x < nw → y < nh → sx x y < w ∧ sy x y < h ∧
      tx (sx x y) (sy x y) = x ∧ ty (sx x y) (sy x y) = y)
    (hi : ∀ x y, x < w → y < h → sx (tx x y) (ty x y) = x ∧ sy (tx x y) (ty x y) = y) :
    Returns (remap P w h (some d) dst) hp
      (fun c => c = (mkImg nw nh 4 fun x y c => px w 4 d (sx x y) (sy x y) c).map some) := by
  have hg1 : ¬ w > P.szMax / h := P.guard_of_mul_le hh (by omega)
  have e1 : P.sz (w * h) = w * h := P.sz_eq' (by omega)
  have hg2 : ¬ w * h > P.szMax / 4 := P.guard_of_mul_le (by omega) (by omega)
  have e2 : P.sz (w * h * 4) = w * h * 4 := P.sz_eq' hsz
  unfold remap
  simp only [Nat.ne_of_gt hw, Nat.ne_of_gt hh, or_self, if_false, hg1, e1, hg2, e2]
  refine allocFill_returns hp ?_
  have hlen : (mkImg nw nh 4 fun x y c => px w 4 d (sx x y) (sy x y) c).length = w * h * 4 := by
    rw [mkImg_length, hn]
  refine (Filled.loop2 (fun y x k => ∃ c, c < 4 ∧ k = dst y x + c)
    (Filled.start' (mkImg nw nh 4 fun x y c => px w 4 d (sx x y) (sy x y) c) hlen.symm) ?_).mono
    ?_
  · intro y hy x hx V t hV
    obtain ⟨hx1, hy1, edst⟩ := ht x y hx hy
    rw [idx4_eq P hx hy hsz]
    have l1 := idx_lt hx hy
    have l2 := idx_lt hx1 hy1
    refine copy4_filled P hV (by omega) (by omega) (by omega) (by rw [edst]; omega) ?_
    intro c hc
    rw [edst, mkImg_getElem? hx1 hy1 hc, getElem?_px hd hx hy hc]
    obtain ⟨i1, i2⟩ := hi x y hx hy
    rw [i1, i2]
  · intro s hs'
    refine hs'.done ?_
    intro k hk
    rw [mkImg_length] at hk
    obtain ⟨x, y, c, hx, hy, hc, rfl⟩ := idx3_surj hk
    obtain ⟨h1, h2, h3, h4⟩ := hs x y hx hy
    refine Or.inr ⟨sy x y, h2, sx x y, h1, c, hc, ?_⟩
    obtain ⟨_, _, e⟩ := ht (sx x y) (sy x y) h1 h2
    rw [e, h3, h4]

/-- Sizes whose byte count does not fit `size_t` are rejected; so is NULL or an empty size. -/
theorem remap_rejects (P : Plat) (w h : Nat) (data : Option (List UInt8)) (hp : Heap)
    (dst : Nat → Nat → Nat)
    (hbad : data = none ∨ w = 0 ∨ h = 0 ∨ P.szMax < w * h * 4) :
    Rejects (remap P w h data dst) hp := by
  unfold Rejects remap
  cases data with
  | none => rfl
  | some d =>
    have hbad' : w = 0 ∨ h = 0 ∨ P.szMax < w * h * 4 := by simpa using hbad
    by_cases h0 : w = 0 ∨ h = 0
    · simp [h0]
    · have hh : 0 < h := by omega
      simp only [h0, if_false]
      split
      · rfl
      · rename_i hg
        have := P.mul_le_of_guard hh hg
        rw [P.sz_eq' this]
        have : w * h > P.szMax / 4 := (P.guard_iff (by omega)).2 (by omega)
        simp [this]

theorem crop_returns_core (P : Plat) (w h ch : Nat) (d : List UInt8) (x0 y0 nw nh : Nat)
    (hp : Heap) (hw : IsU32 w) (hh : IsU32 h) (hch : 0 < ch) (hnw : 0 < nw) (hnh : 0 < nh)
    (hx : x0 + nw ≤ w) (hy : y0 + nh ≤ h)
    (hd : d.length = w * h * ch) (hsz : w * h * ch ≤ P.szMax) :
    Returns (fcv_crop P w h ch (some d) x0 y0 nw nh) hp
      (fun c => c = (Spec.crop w ch d x0 y0 nw nh).map some) := by
  unfold IsU32 at hw hh
  have hwh : nw * nh ≤ w * h := Nat.mul_le_mul (by omega) (by omega)
  have hsz' : nw * nh * ch ≤ P.szMax := Nat.le_trans (Nat.mul_le_mul_right _ hwh) hsz
  have hle : nw * nh ≤ P.szMax :=
    Nat.le_trans (Nat.le_mul_of_pos_right _ hch) hsz'
  have hg1 : ¬ nw > P.szMax / nh := P.guard_of_mul_le hnh hle
  have e1 : P.sz (nw * nh) = nw * nh := P.sz_eq' hle
  have hg2 : ¬ nw * nh > P.szMax / ch := P.guard_of_mul_le hch hsz'
  have e2 : P.sz (nw * nh * ch) = nw * nh * ch := P.sz_eq' hsz'
  have hrow : nw * ch ≤ P.szMax := by
    refine Nat.le_trans ?_ hsz'
    exact Nat.mul_le_mul_right _ (Nat.le_mul_of_pos_right _ hnh)
  have e3 : P.sz (nw * ch) = nw * ch := P.sz_eq' hrow
  have z : ¬ (w = 0 ∨ h = 0 ∨ ch = 0 ∨ nw = 0 ∨ nh = 0) := by omega
  have g1 : ¬ (x0 > u32sub 4294967295 nw ∨ y0 > u32sub 4294967295 nh) := by
    rw [u32sub_eq (by omega) (by omega), u32sub_eq (by omega) (by omega)]; omega
  have g2 : ¬ (u32 (x0 + nw) > w ∨ u32 (y0 + nh) > h) := by
    rw [u32_eq (by omega), u32_eq (by omega)]; omega
  unfold fcv_crop
  simp only [z, g1, g2, if_false, hg1, e1, hg2, e2, e3]
  refine allocFill_returns hp ?_
  have hlen : (Spec.crop w ch d x0 y0 nw nh).length = nw * nh * ch := mkImg_length ..
  refine (Filled.loop (fun i k => ∃ j, j < nw * ch ∧ k = i * (nw * ch) + j)
    (Filled.start' (Spec.crop w ch d x0 y0 nw nh) hlen.symm) ?_).mono ?_
  · intro i hi V t hV
    rw [u32_eq (n := y0 + i) (by omega)]
    have l1 : (y0 + i) * w + x0 < w * h := idx_lt (by omega) (by omega)
    have l2 := idx3_lt (x := x0) (y := y0 + i) (c := 0) (w := w) (h := h) (ch := ch)
      (by omega) (by omega) hch
    have l3 : w * h ≤ P.szMax := Nat.le_trans (Nat.le_mul_of_pos_right _ hch) hsz
    rw [P.sz_eq' (n := (y0 + i) * w) (by omega), P.sz_eq' (n := (y0 + i) * w + x0) (by omega),
      P.sz_eq' (n := ((y0 + i) * w + x0) * ch) (by omega)]
    have l4 : i * (nw * ch) < nw * nh * ch := by
      have := idx3_lt (x := 0) (y := i) (c := 0) (w := nw) (h := nh) (ch := ch) hnw hi hch
      simpa [Nat.mul_assoc] using this
    rw [P.sz_eq' (n := i * (nw * ch)) (by omega)]
    refine hV.memcpyIn ?_ ?_
    · rw [hd]
      have : (y0 + i) * w + x0 + nw ≤ w * h := by
        have := idx_lt (x := x0 + nw - 1) (y := y0 + i) (w := w) (h := h) (by omega) (by omega)
        omega
      have := Nat.mul_le_mul_right ch this
      rw [Nat.add_mul _ nw] at this
      exact this
    · intro k hk
      obtain ⟨x, y, c, hx', hy', hc', rfl⟩ :=
        idx3_surj (k := k) (w := nw) (h := 1) (ch := ch) (by simpa using hk)
      have y0' : y = 0 := by omega
      subst y0'
      simp only [Nat.zero_mul, Nat.zero_add]
      have ea : i * (nw * ch) + (x * ch + c) = (i * nw + x) * ch + c := by
        rw [Nat.add_mul, Nat.mul_assoc, Nat.add_assoc]
      have eb : ((y0 + i) * w + x0) * ch + (x * ch + c)
          = ((y0 + i) * w + (x0 + x)) * ch + c := by
        rw [← Nat.add_assoc, ← Nat.add_mul, Nat.add_assoc]
      rw [ea, eb, Spec.crop, mkImg_getElem? hx' hi hc',
        getElem?_px hd (by omega) (by omega) hc']
  · intro s hs
    refine hs.done ?_
    intro k hk
    rw [hlen] at hk
    obtain ⟨x, y, c, hx', hy', hc', rfl⟩ := idx3_surj hk
    refine Or.inr ⟨y, hy', x * ch + c, ?_, ?_⟩
    · have := idx3_lt (x := x) (y := 0) (c := c) (w := nw) (h := 1) (ch := ch) hx' (by omega) hc'
      simpa using this
    · rw [Nat.add_mul, Nat.mul_assoc, Nat.add_assoc]

end FlatCV
