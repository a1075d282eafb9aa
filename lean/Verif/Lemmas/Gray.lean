import Verif.Model.Gray
import Verif.Spec.Gray
import Verif.Spec.Call
import Verif.Lemmas.Image
import Verif.Lemmas.Mem

namespace FlatCV
open Model

theorem lumaByte_eq (r g b : UInt8) : lumaByte r g b = Spec.luma r g b := by
  unfold lumaByte Spec.luma u8
  congr 2
  omega

theorem luma_sum_lt (r g b : UInt8) :
    (76 * r.toNat + 150 * g.toNat + 30 * b.toNat) / 256 < 256 := by
  have := r.toNat_lt; have := g.toNat_lt; have := b.toNat_lt
  omega

theorem luma_toNat (r g b : UInt8) :
    (Spec.luma r g b).toNat = (76 * r.toNat + 150 * g.toNat + 30 * b.toNat) / 256 := by
  unfold Spec.luma
  rw [UInt8.toNat_ofNat', Nat.mod_eq_of_lt (luma_sum_lt r g b)]

theorem luma_self (v : UInt8) : Spec.luma v v v = v := by
  apply UInt8.toNat_inj.1
  rw [luma_toNat]
  omega

theorem gray_getElem? {n i : Nat} {d : List UInt8} (hi : i < n) :
    (Spec.gray n d)[i]? = some (Spec.lumaAt d i) := by
  have := mkPx_getElem? (n := n) (ch := 1) (f := fun i _ => Spec.lumaAt d i) (i := i) (c := 0)
    hi (by omega)
  simpa [Spec.gray] using this

@[simp] theorem gray_length (n : Nat) (d : List UInt8) : (Spec.gray n d).length = n := by
  simp [Spec.gray]

@[simp] theorem grayRGBA_length (n : Nat) (v : Nat → UInt8) :
    (Spec.grayRGBA n v).length = n * 4 := by simp [Spec.grayRGBA]

theorem gray_returns_core (P : Plat) (w h : Nat) (d : List UInt8) (hp : Heap)
    (hw : 0 < w) (hh : 0 < h) (hd : d.length = w * h * 4) (hsz : w * h * 4 ≤ P.szMax) :
    Returns (fcv_rgba_to_grayscale P w h (some d)) hp
      (fun c => c = (Spec.gray (w * h) d).map some) := by
  have hg1 : ¬ w > P.szMax / h := P.guard_of_mul_le hh (by omega)
  have e1 : P.sz (w * h) = w * h := P.sz_eq' (by omega)
  unfold fcv_rgba_to_grayscale
  simp only [Nat.ne_of_gt hw, Nat.ne_of_gt hh, or_self, if_false, hg1, e1]
  refine allocFill_returns hp ?_
  refine (Filled.loop (fun i k => k = i)
    (Filled.start' (Spec.gray (w * h) d) (by simp)) ?_).mono ?_
  · intro i hi V t hV
    rw [P.sz_eq' (n := i * 4) (by omega), P.sz_eq' (n := i * 4 + 1) (by omega),
      P.sz_eq' (n := i * 4 + 2) (by omega),
      rdIn_ok (i := i * 4) (getElem?_px1 (c := 0) hd hi (by omega)),
      rdIn_ok (getElem?_px1 (c := 1) hd hi (by omega)),
      rdIn_ok (getElem?_px1 (c := 2) hd hi (by omega))]
    simp only [ok_bind, lumaByte_eq]
    exact hV.wr (gray_getElem? hi)
  · intro s hs
    refine hs.done fun k hk => Or.inr ⟨k, by simpa using hk, rfl⟩

theorem multi_returns_core (P : Plat) (w h : Nat) (d : List UInt8) (hp : Heap)
    (hw : 0 < w) (hh : 0 < h) (hd : d.length = w * h) (hsz : w * h * 4 ≤ P.szMax) :
    Returns (fcv_single_to_multichannel P w h (some d)) hp
      (fun c => c = (Spec.grayRGBA (w * h) (fun i => px1 1 d i 0)).map some) := by
  have hg1 : ¬ w > P.szMax / h := P.guard_of_mul_le hh (by omega)
  have e1 : P.sz (w * h) = w * h := P.sz_eq' (by omega)
  have hg2 : ¬ w * h > P.szMax / 4 := P.guard_of_mul_le (by omega) (by omega)
  have e2 : P.sz (w * h * 4) = w * h * 4 := P.sz_eq' hsz
  unfold fcv_single_to_multichannel
  simp only [Nat.ne_of_gt hw, Nat.ne_of_gt hh, or_self, if_false, hg1, e1, hg2, e2]
  refine allocFill_returns hp ?_
  refine (Filled.loop (fun i k => ∃ c, c < 4 ∧ k = i * 4 + c)
    (Filled.start' (Spec.grayRGBA (w * h) (fun i => px1 1 d i 0)) (by simp)) ?_).mono ?_
  · intro i hi V t hV
    have hr : d[i]? = some (px1 1 d i 0) := by
      have := getElem?_px1 (n := w * h) (ch := 1) (d := d) (by omega) hi (c := 0) (by omega)
      simpa using this
    rw [P.sz_eq' (n := i * 4) (by omega), P.sz_eq' (n := i * 4 + 1) (by omega),
      P.sz_eq' (n := i * 4 + 2) (by omega), P.sz_eq' (n := i * 4 + 3) (by omega),
      rdIn_ok hr]
    simp only [ok_bind]
    have ho : ∀ c, c < 4 → (Spec.grayRGBA (w * h) (fun i => px1 1 d i 0))[i * 4 + c]?
        = some (if c < 3 then px1 1 d i 0 else 255) := fun c hc => mkPx_getElem? hi hc
    refine Ok.bind (hV.wr (k := i * 4) (ho 0 (by omega))) fun s1 h1 => ?_
    refine Ok.bind (h1.wr (ho 1 (by omega))) fun s2 h2 => ?_
    refine Ok.bind (h2.wr (ho 2 (by omega))) fun s3 h3 => ?_
    refine (h3.wr (ho 3 (by omega))).mono fun s4 h4 => h4.mono ?_
    rintro k _ (h | ⟨c, hc, rfl⟩)
    · exact Or.inl (Or.inl (Or.inl (Or.inl h)))
    · have : c = 0 ∨ c = 1 ∨ c = 2 ∨ c = 3 := by omega
      rcases this with rfl | rfl | rfl | rfl
      · exact Or.inl (Or.inl (Or.inl (Or.inr rfl)))
      · exact Or.inl (Or.inl (Or.inr rfl))
      · exact Or.inl (Or.inr rfl)
      · exact Or.inr rfl
  · intro s hs
    refine hs.done fun k hk => ?_
    obtain ⟨i, c, hi, hc, rfl⟩ := idx2_surj (n := w * h) (ch := 4) (by simpa using hk)
    exact Or.inr ⟨i, hi, c, hc, rfl⟩

theorem getLuma_ok {n i : Nat} {d : List UInt8} (hd : d.length = n * 4) (hi : i < n)
    (h32 : n * 4 ≤ 4294967296) : getLuma d (u32 (i * 4)) = .ok (Spec.lumaAt d i) := by
  unfold getLuma
  rw [u32_eq (n := i * 4) (by omega), u32_eq (n := i * 4 + 1) (by omega),
    u32_eq (n := i * 4 + 2) (by omega),
    rdIn_ok (i := i * 4) (getElem?_px1 (c := 0) hd hi (by omega)),
    rdIn_ok (getElem?_px1 (c := 1) hd hi (by omega)),
    rdIn_ok (getElem?_px1 (c := 2) hd hi (by omega))]
  simp only [ok_bind, lumaByte_eq]
  rfl

theorem putGray_filled {n i : Nat} {v : Nat → UInt8} {W : Nat → Prop} {s : Cells UInt8}
    (hs : Filled (Spec.grayRGBA n v) W s) (hi : i < n) (h32 : n * 4 ≤ 4294967296) :
    Ok (putGray s (u32 (i * 4)) (v i))
      (Filled (Spec.grayRGBA n v) (fun k => W k ∨ ∃ c, c < 4 ∧ k = i * 4 + c)) := by
  unfold putGray
  rw [u32_eq (n := i * 4) (by omega), u32_eq (n := i * 4 + 1) (by omega),
    u32_eq (n := i * 4 + 2) (by omega), u32_eq (n := i * 4 + 3) (by omega)]
  have ho : ∀ c, c < 4 → (Spec.grayRGBA n v)[i * 4 + c]?
      = some (if c < 3 then v i else 255) := fun c hc => mkPx_getElem? hi hc
  refine Ok.bind (hs.wr (k := i * 4) (ho 0 (by omega))) fun s1 h1 => ?_
  refine Ok.bind (h1.wr (ho 1 (by omega))) fun s2 h2 => ?_
  refine Ok.bind (h2.wr (ho 2 (by omega))) fun s3 h3 => ?_
  refine (h3.wr (ho 3 (by omega))).mono fun s4 h4 => h4.mono ?_
  rintro k _ (h | ⟨c, hc, rfl⟩)
  · exact Or.inl (Or.inl (Or.inl (Or.inl h)))
  · have : c = 0 ∨ c = 1 ∨ c = 2 ∨ c = 3 := by omega
    rcases this with rfl | rfl | rfl | rfl
    · exact Or.inl (Or.inl (Or.inl (Or.inr rfl)))
    · exact Or.inl (Or.inl (Or.inr rfl))
    · exact Or.inl (Or.inr rfl)
    · exact Or.inr rfl

theorem grayscale_returns_core (P : Plat) (w h : Nat) (d : List UInt8) (hp : Heap)
    (hw : 0 < w) (hh : 0 < h) (hd : d.length = w * h * 4) (hsz : w * h * 4 ≤ P.szMax)
    (h32 : w * h * 4 ≤ 4294967296) :
    Returns (fcv_grayscale P w h (some d)) hp
      (fun c => c = (Spec.grayRGBA (w * h) (Spec.lumaAt d)).map some) := by
  have hg1 : ¬ w > P.szMax / h := P.guard_of_mul_le hh (by omega)
  have e1 : P.sz (w * h) = w * h := P.sz_eq' (by omega)
  have hg2 : ¬ w * h > P.szMax / 4 := P.guard_of_mul_le (by omega) (by omega)
  have e2 : P.sz (w * h * 4) = w * h * 4 := P.sz_eq' hsz
  have e3 : u32 (w * h) = w * h := u32_eq (by omega)
  unfold fcv_grayscale
  simp only [Nat.ne_of_gt hw, Nat.ne_of_gt hh, or_self, if_false, hg1, e1, hg2, e2, e3]
  refine allocFill_returns hp ?_
  refine (Filled.loop (fun i k => ∃ c, c < 4 ∧ k = i * 4 + c)
    (Filled.start' (Spec.grayRGBA (w * h) (Spec.lumaAt d)) (by simp)) ?_).mono ?_
  · intro i hi V t hV
    rw [getLuma_ok hd hi h32]
    exact putGray_filled hV hi h32
  · intro s hs
    refine hs.done fun k hk => ?_
    obtain ⟨i, c, hi, hc, rfl⟩ := idx2_surj (n := w * h) (ch := 4) (by simpa using hk)
    exact Or.inr ⟨i, hi, c, hc, rfl⟩

/-- Without the 32-bit bound: the loop never writes at or beyond byte `2^32`. -/
theorem grayscale_returns_large (P : Plat) (w h : Nat) (d : List UInt8) (hp : Heap)
    (hw : 0 < w) (hh : 0 < h) (hd : d.length = w * h * 4) (hsz : w * h * 4 ≤ P.szMax)
    (h32 : 4294967296 < w * h * 4) :
    Returns (fcv_grayscale P w h (some d)) hp
      (fun c => c.length = w * h * 4 ∧ ∀ k, 4294967296 ≤ k → k < w * h * 4 →
        c[k]? = some none) := by
  have hg1 : ¬ w > P.szMax / h := P.guard_of_mul_le hh (by omega)
  have e1 : P.sz (w * h) = w * h := P.sz_eq' (by omega)
  have hg2 : ¬ w * h > P.szMax / 4 := P.guard_of_mul_le (by omega) (by omega)
  have e2 : P.sz (w * h * 4) = w * h * 4 := P.sz_eq' hsz
  unfold fcv_grayscale
  simp only [Nat.ne_of_gt hw, Nat.ne_of_gt hh, or_self, if_false, hg1, e1, hg2, e2]
  refine allocFill_returns hp ?_
  refine forN_ok (fun _ (s : Cells UInt8) => s.length = w * h * 4 ∧ ∀ k, 4294967296 ≤ k → k < w * h * 4 →
        s[k]? = some none) ⟨by simp, ?_⟩ ?_
  · intro k _ hk
    simp [hk]
  · intro i _ s hs
    have hrd : ∀ j, ∃ v, rdIn d (u32 j) = .ok v := fun j =>
      ⟨d[u32 j]'(by have := u32_lt j; omega), rdIn_ok (List.getElem?_eq_getElem _)⟩
    obtain ⟨v0, r0⟩ := hrd (i * 4)
    obtain ⟨v1, r1⟩ := hrd (u32 (i * 4) + 1)
    obtain ⟨v2, r2⟩ := hrd (u32 (i * 4) + 2)
    have hwr : ∀ (s : Cells UInt8) j v, (s.length = w * h * 4 ∧ ∀ k, 4294967296 ≤ k →
        k < w * h * 4 → s[k]? = some none) → Ok (wr s (u32 j) v) (fun s => s.length = w * h * 4 ∧
        ∀ k, 4294967296 ≤ k → k < w * h * 4 → s[k]? = some none) := by
      intro s j v hs
      have hj := u32_lt j
      rw [wr_ok (by rw [hs.1]; omega)]
      refine Ok.pure ⟨by simp [hs.1], fun k h1 h2 => ?_⟩
      rw [List.getElem?_set_ne (by omega)]
      exact hs.2 k h1 h2
    simp only [getLuma, r0, r1, r2, ok_bind, pure_bind', putGray]
    refine Ok.bind (hwr s _ _ hs) fun s1 h1 => ?_
    refine Ok.bind (hwr s1 _ _ h1) fun s2 h2 => ?_
    refine Ok.bind (hwr s2 _ _ h2) fun s3 h3 => ?_
    exact hwr s3 _ _ h3

end FlatCV
