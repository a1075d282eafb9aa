import Verif.Lemmas.Draw

namespace FlatCV
open Model Spec

section
variable {P : Plat} {w h ch b : Nat} {d : List UInt8}

theorem borderPixel_filled {out : List UInt8} {W : Nat → Prop} {s : Cells UInt8} {i : Nat}
    (hch : ch = 1 ∨ ch = 3 ∨ ch = 4) (col : UInt8 × UInt8 × UInt8) (hs : Filled out W s)
    (hi : i + ch ≤ 4294967296)
    (hv : ∀ c, c < ch → out[i + c]? = some (paintByte ch col.1 col.2.1 col.2.2
      (lumaOf col.1 col.2.1 col.2.2) c 0)) :
    Ok (borderPixel ch col i s) (Filled out (fun k => W k ∨ ∃ c, c < ch ∧ k = i + c)) := by
  obtain ⟨r, g, bl⟩ := col
  unfold borderPixel
  by_cases c1 : ch = 1
  · subst c1
    rw [if_pos rfl, drawLuma_eq]
    simp only [ok_bind]
    have e := hv 0 (by omega)
    simp only [paintByte, if_true, Nat.add_zero] at e
    refine (hs.wr e).mono fun s' h' => h'.mono ?_
    rintro k _ (h | ⟨c, hc, rfl⟩)
    · exact Or.inl h
    · right; omega
  · rw [if_neg c1, if_pos (by omega), u32_eq (n := i + 1) (by omega), u32_eq (n := i + 2) (by omega)]
    have c3 : ¬ ch < 3 := by omega
    have e0 := hv 0 (by omega)
    have e1 := hv 1 (by omega)
    have e2 := hv 2 (by omega)
    simp only [paintByte, c1, c3, if_false, if_true, Nat.add_zero] at e0 e1 e2
    refine Ok.bind (hs.wr e0) fun s1 h1 => ?_
    refine Ok.bind (h1.wr (k := i + 1) (v := g) (by simpa using e1)) fun s2 h2 => ?_
    refine Ok.bind (h2.wr (k := i + 2) (v := bl) (by simpa using e2)) fun s3 h3 => ?_
    by_cases c4 : ch = 4
    · rw [if_pos c4, u32_eq (n := i + 3) (by omega)]
      have e3 := hv 3 (by omega)
      refine (h3.wr (k := i + 3) (v := 255) (by
        rw [e3]; simp [paintByte, c4])).mono fun s4 h4 => h4.mono ?_
      rintro k _ (h | ⟨c, hc, rfl⟩)
      · exact Or.inl (Or.inl (Or.inl (Or.inl h)))
      · have : c = 0 ∨ c = 1 ∨ c = 2 ∨ c = 3 := by omega
        rcases this with rfl | rfl | rfl | rfl
        · exact Or.inl (Or.inl (Or.inl (Or.inr rfl)))
        · exact Or.inl (Or.inl (Or.inr rfl))
        · exact Or.inl (Or.inr rfl)
        · exact Or.inr rfl
    · rw [if_neg c4]
      refine Ok.pure' (h3.mono ?_)
      rintro k _ (h | ⟨c, hc, rfl⟩)
      · exact Or.inl (Or.inl (Or.inl h))
      · have : c = 0 ∨ c = 1 ∨ c = 2 := by omega
        rcases this with rfl | rfl | rfl
        · exact Or.inl (Or.inl (Or.inr rfl))
        · exact Or.inl (Or.inr rfl)
        · exact Or.inr rfl

/-- The loops of `fcv_add_border`. -/
def borderFill (w h ch b : Nat) (col : UInt8 × UInt8 × UInt8) (ow oh : Nat) (d : List UInt8)
    (out : Cells UInt8) : CM (Cells UInt8) := do
  let out ← forN oh out fun y out => forN ow out fun x out =>
    borderPixel ch col (u32 (u32 (u32 (y * ow) + x) * ch)) out
  forN h out fun y out => forN w out fun x out =>
    let src_index := u32 (u32 (u32 (y * w) + x) * ch)
    let dst_index := u32 (u32 (u32 (u32 (y + b) * ow) + u32 (x + b)) * ch)
    forN ch out fun c out => do
      let v ← rdIn d (u32 (src_index + c))
      wr out (u32 (dst_index + c)) v

theorem u32_idx {x y W H ch : Nat} (hx : x < W) (hy : y < H) (hch : 0 < ch)
    (hs : W * H * ch ≤ 4294967296) :
    u32 (u32 (u32 (y * W) + x) * ch) = (y * W + x) * ch ∧
      (y * W + x) * ch + ch ≤ 4294967296 := by
  have l := idx_lt hx hy
  have l2 := idx3_lt (c := ch - 1) (ch := ch) hx hy (by omega)
  have : y * W + x ≤ (y * W + x) * ch := Nat.le_mul_of_pos_right _ hch
  rw [u32_eq (n := y * W) (by omega), u32_eq (n := y * W + x) (by omega), u32_eq (by omega)]
  exact ⟨rfl, by omega⟩

theorem borderFill_ok (hch : ch = 1 ∨ ch = 3 ∨ ch = 4) (col : UInt8 × UInt8 × UInt8)
    (hw : 0 < w) (hd : d.length = w * h * ch)
    (hs : (w + 2 * b) * (h + 2 * b) * ch ≤ 4294967296) :
    borderFill w h ch b col (w + 2 * b) (h + 2 * b) d
        (List.replicate ((w + 2 * b) * (h + 2 * b) * ch) none)
      = .ok ((bordered w h ch col.1 col.2.1 col.2.2 (lumaOf col.1 col.2.1 col.2.2) b d).map
          some) := by
  have hch0 : 0 < ch := by omega
  have hin : w * h * ch ≤ (w + 2 * b) * (h + 2 * b) * ch :=
    Nat.mul_le_mul_right _ (Nat.mul_le_mul (by omega) (by omega))
  unfold borderFill
  -- the frame colour everywhere
  have s1 : forN (h + 2 * b) (List.replicate ((w + 2 * b) * (h + 2 * b) * ch) none)
      (fun y out => forN (w + 2 * b) out fun x out =>
        borderPixel ch col (u32 (u32 (u32 (y * (w + 2 * b)) + x) * ch)) out)
      = .ok ((mkImg (w + 2 * b) (h + 2 * b) ch fun _ _ c => paintByte ch col.1 col.2.1 col.2.2
          (lumaOf col.1 col.2.1 col.2.2) c 0).map some) := by
    refine Ok.eq ((Filled.loop2 (fun y x k => ∃ c, c < ch ∧ k = (y * (w + 2 * b) + x) * ch + c)
      (Filled.start' (mkImg (w + 2 * b) (h + 2 * b) ch fun _ _ c => paintByte ch col.1 col.2.1
        col.2.2 (lumaOf col.1 col.2.1 col.2.2) c 0) (mkImg_length ..).symm) ?_).mono ?_)
    · intro y hy x hx V t ht
      obtain ⟨e, hl⟩ := u32_idx hx hy hch0 hs
      rw [e]
      refine borderPixel_filled hch col ht hl fun c hc => ?_
      rw [mkImg_getElem? hx hy hc]
    · intro s hs'
      refine hs'.done fun k hk => Or.inr ?_
      rw [mkImg_length] at hk
      obtain ⟨x, y, c, hx, hy, hc, rfl⟩ := idx3_surj hk
      exact ⟨y, hy, x, hx, c, hc, rfl⟩
  rw [s1]
  simp only [ok_bind]
  -- then the interior
  have st : Filled (bordered w h ch col.1 col.2.1 col.2.2 (lumaOf col.1 col.2.1 col.2.2) b d)
      (fun k => ∃ x y c, x < w + 2 * b ∧ y < h + 2 * b ∧ c < ch ∧
        k = (y * (w + 2 * b) + x) * ch + c ∧ ¬ (b ≤ x ∧ x < b + w ∧ b ≤ y ∧ y < b + h))
      ((mkImg (w + 2 * b) (h + 2 * b) ch fun _ _ c => paintByte ch col.1 col.2.1 col.2.2
          (lumaOf col.1 col.2.1 col.2.2) c 0).map some) := by
    refine ⟨by simp [bordered], ?_⟩
    rintro k hk ⟨x, y, c, hx, hy, hc, rfl, hn⟩
    unfold bordered
    rw [List.getElem?_map, mkImg_getElem? hx hy hc, mkImg_getElem? hx hy hc, if_neg hn]
    rfl
  refine Ok.eq ((Filled.loop2 (fun y x k => ∃ c, c < ch ∧
    k = ((y + b) * (w + 2 * b) + (x + b)) * ch + c) st ?_).mono ?_)
  · intro y hy x hx V t ht
    have hx' : x + b < w + 2 * b := by omega
    have hy' : y + b < h + 2 * b := by omega
    obtain ⟨e1, l1⟩ := u32_idx hx hy hch0 (by omega)
    obtain ⟨e2, l2⟩ := u32_idx hx' hy' hch0 hs
    have lb := idx_lt hx' hy'
    have : (w + 2 * b) * (h + 2 * b) ≤ (w + 2 * b) * (h + 2 * b) * ch :=
      Nat.le_mul_of_pos_right _ hch0
    have hyb : y + b < 4294967296 := by
      have : y + b ≤ (y + b) * (w + 2 * b) := Nat.le_mul_of_pos_right _ (by omega)
      omega
    rw [u32_eq (n := y + b) hyb, u32_eq (n := x + b) (by omega)]
    simp only [e1, e2]
    refine Filled.loop (fun c k => k = ((y + b) * (w + 2 * b) + (x + b)) * ch + c) ht ?_
    intro c hc V' t' ht'
    rw [u32_eq (n := (y * w + x) * ch + c) (by omega),
      u32_eq (n := ((y + b) * (w + 2 * b) + (x + b)) * ch + c) (by omega),
      rdIn_ok (getElem?_px hd hx hy hc)]
    simp only [ok_bind]
    refine ht'.wr ?_
    unfold bordered
    rw [mkImg_getElem? hx' hy' hc, if_pos (by omega), Nat.add_sub_cancel, Nat.add_sub_cancel]
  · intro s hs'
    refine hs'.done fun k hk => ?_
    unfold bordered at hk
    rw [mkImg_length] at hk
    obtain ⟨x, y, c, hx, hy, hc, rfl⟩ := idx3_surj hk
    by_cases hn : b ≤ x ∧ x < b + w ∧ b ≤ y ∧ y < b + h
    · right
      refine ⟨y - b, by omega, x - b, by omega, c, hc, ?_⟩
      rw [Nat.sub_add_cancel hn.1, Nat.sub_add_cancel hn.2.2.1]
    · exact Or.inl ⟨x, y, c, hx, hy, hc, rfl, hn⟩

/-- Bytes whose index does not fit `uint32_t` are never written. -/
theorem wr_keeps {s : Cells UInt8} {i k : Nat} {v : UInt8} (hik : i ≠ k) :
    Part (wr s i v) (fun t => t[k]? = s[k]?) := by
  intro t ht
  unfold wr at ht
  split at ht
  · cases ht
    rw [List.getElem?_set_ne hik]
  · cases ht

theorem borderFill_large {col : UInt8 × UInt8 × UInt8} {ow oh k : Nat} (hk : 4294967296 ≤ k)
    (s : Cells UInt8) :
    Part (borderFill w h ch b col ow oh d s) (fun t => t[k]? = s[k]?) := by
  have ne : ∀ n, u32 n ≠ k := fun n => by have := u32_lt n; omega
  unfold borderFill
  refine Part.bind (P := fun t => t[k]? = s[k]?) ?_ ?_
  · refine Part.forN (fun _ t => t[k]? = s[k]?) rfl fun y _ t ht => ?_
    refine Part.forN (fun _ t => t[k]? = s[k]?) ht fun x _ t ht => ?_
    unfold borderPixel
    split
    · rw [drawLuma_eq]
      exact (wr_keeps (ne _)).mono fun t' h' => h'.trans ht
    · split
      · refine Part.bind (wr_keeps (ne _)) fun t1 h1 => ?_
        refine Part.bind (wr_keeps (ne _)) fun t2 h2 => ?_
        refine Part.bind (wr_keeps (ne _)) fun t3 h3 => ?_
        split
        · exact (wr_keeps (ne _)).mono fun t' h' => by rw [h', h3, h2, h1, ht]
        · exact Part.pure' (by rw [h3, h2, h1, ht])
      · exact Part.pure' ht
  · intro t ht
    refine Part.forN (fun _ t => t[k]? = s[k]?) ht fun y _ t ht => ?_
    refine Part.forN (fun _ t => t[k]? = s[k]?) ht fun x _ t ht => ?_
    refine Part.forN (fun _ t => t[k]? = s[k]?) ht fun c _ t ht => ?_
    exact Part.bind (Part.trivial _) fun v _ => (wr_keeps (ne _)).mono fun t' h' => h'.trans ht

/-- Past the argument checks. -/
theorem add_border_eq (hw : 0 < w) (hh : 0 < h) (hch : 0 < ch) (hb : 0 < b) (hex : List Char)
    (h1 : w + 2 * b < 4294967296) (h2 : h + 2 * b < 4294967296)
    (h3 : (w + 2 * b) * (h + 2 * b) * ch ≤ P.szMax) :
    fcv_add_border P w h ch (some hex) b (some d) = (do
      let r ← allocFill ((w + 2 * b) * (h + 2 * b) * ch)
        (borderFill w h ch b (fcv_parse_hex_color hex) (w + 2 * b) (h + 2 * b) d)
      pure (r, some (w + 2 * b, h + 2 * b)) : HM _) := by
  have hle : (w + 2 * b) * (h + 2 * b) ≤ (w + 2 * b) * (h + 2 * b) * ch :=
    Nat.le_mul_of_pos_right _ hch
  unfold fcv_add_border
  simp only
  rw [if_neg (by omega), if_neg (by omega), u32sub_eq (by omega) (by omega),
    u32sub_eq (by omega) (by omega), if_neg (by omega), u32_eq (n := 2 * b) (by omega),
    u32_eq h1, u32_eq h2, if_neg (P.guard_of_mul_le (by omega) (by omega)),
    P.sz_eq' (n := (w + 2 * b) * (h + 2 * b)) (by omega),
    if_neg (P.guard_of_mul_le hch h3), P.sz_eq' h3]
  rfl

end

end FlatCV
