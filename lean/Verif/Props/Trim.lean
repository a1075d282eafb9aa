/-
Properties C39–C41 and C71 (trim.c).
-/
import Verif.Lemmas.Trim

namespace FlatCV.Props
open Model Spec

variable {P : Plat} {w h ch : Nat} {d : List UInt8}

theorem reads_px (im : Img P w h ch d) (h32 : w * h * ch ≤ 4294967296) :
    Reads d w h ch (px w ch d) := by
  intro x y c hx hy hc
  have h1 : (y * w + x) * ch + c < w * h * ch := idx3_lt hx hy hc
  have hch : 0 < ch := by omega
  have h2 : (y * w + x) * 1 ≤ (y * w + x) * ch := Nat.mul_le_mul_left _ hch
  have e : trimIdx w ch y x = (y * w + x) * ch := by
    unfold trimIdx
    rw [u32_eq (n := y * w) (by omega), u32_eq (n := y * w + x) (by omega), u32_eq (by omega)]
  rw [e]
  exact rdIn_ok (getElem?_px im.len hx hy hc)

theorem rel_same : Rel sameChannel = Same := by
  funext a b; simp [Rel, sameChannel, Same]

theorem rel_close (tol : UInt8) : Rel (closeChannel tol) = Within tol.toNat := by
  funext a b
  have ha := a.toNat_lt
  have hb := b.toNat_lt
  simp only [Rel, closeChannel, Within, eq_iff_iff, Bool.not_eq_true', decide_eq_false_iff_not,
    gt_iff_lt, UInt8.lt_iff_toNat_lt, not_lt]
  have key : ∀ z : Int, 0 ≤ z → z < 256 → (u8OfInt z).toNat = z.toNat := by
    intro z h0 h1
    unfold u8OfInt
    rw [UInt8.toNat_ofNat']
    omega
  split
  · rw [key _ (by omega) (by omega)]; omega
  · rw [key _ (by omega) (by omega)]; omega

/-! ### C39: what trim keeps -/

/-- C39: `fcv_trim` keeps a non-empty rectangle and reports its size; the columns and rows it
removed were uniform over the extent examined, the next ones were not. -/
theorem trim_correct (im : Img P w h ch d) (hch : 0 < ch) (hw : w < 2 ^ 31) (hh : h < 2 ^ 31)
    (h32 : w * h * ch ≤ 2 ^ 32) :
    ∃ l r t b, TrimBox Same (px w ch d) w h ch l r t b ∧
      TrimsTo (fcv_trim P w h ch (some d)) w ch d l r t b := by
  obtain ⟨l, r, t, b, hbox, htr⟩ := trimWith_trims (good := sameChannel) im hch (by omega)
    (by omega) (reads_px im (by omega))
  rw [rel_same] at hbox
  refine ⟨l, r, t, b, hbox, ?_⟩
  have z : ¬ ((w : Int) ≤ 0 ∨ (h : Int) ≤ 0 ∨ ch = 0) := by
    have := im.w_pos; have := im.h_pos; omega
  unfold fcv_trim
  simp only [z, if_false]
  exact htr

/-- The kept rectangle is determined by the image. -/
theorem trimBox_unique {good : UInt8 → UInt8 → Prop} {g : Nat → Nat → Nat → UInt8}
    {l r t b l' r' t' b' : Nat} (h1 : TrimBox good g w h ch l r t b)
    (h2 : TrimBox good g w h ch l' r' t' b') : l = l' ∧ r = r' ∧ t = t' ∧ b = b' := by
  have a1 := h1.l_lt
  have a2 := h2.l_lt
  have b1 := h1.r_le
  have b2 := h2.r_le
  have c1 := h1.t_lt
  have c2 := h2.t_lt
  have d1 := h1.b_le
  have d2 := h2.b_le
  have el : l = l' := by
    rcases Nat.lt_trichotomy l l' with hlt | he | hlt
    · rcases h1.left_stop with hs | hs
      · omega
      · exact absurd (h2.left l hlt) hs
    · exact he
    · rcases h2.left_stop with hs | hs
      · omega
      · exact absurd (h1.left l' hlt) hs
  subst el
  have er : r = r' := by
    rcases Nat.lt_trichotomy r r' with hlt | he | hlt
    · rcases h2.right_stop with hs | hs
      · omega
      · exact absurd (h1.right (r' - 1) (by omega) (by omega)) hs
    · exact he
    · rcases h1.right_stop with hs | hs
      · omega
      · exact absurd (h2.right (r - 1) (by omega) (by omega)) hs
  subst er
  have et : t = t' := by
    rcases Nat.lt_trichotomy t t' with hlt | he | hlt
    · rcases h1.top_stop with hs | hs
      · omega
      · exact absurd (h2.top t hlt) hs
    · exact he
    · rcases h2.top_stop with hs | hs
      · omega
      · exact absurd (h1.top t' hlt) hs
  subst et
  have eb : b = b' := by
    rcases Nat.lt_trichotomy b b' with hlt | he | hlt
    · rcases h2.bottom_stop with hs | hs
      · omega
      · exact absurd (h1.bottom (b' - 1) (by omega) (by omega)) hs
    · exact he
    · rcases h1.bottom_stop with hs | hs
      · omega
      · exact absurd (h2.bottom (b - 1) (by omega) (by omega)) hs
  exact ⟨rfl, rfl, rfl, eb⟩

/-- A 4×3 image with a border around two different pixels: those two are kept. -/
example : fcv_trim .lp64 4 3 1 (some [7, 7, 7, 7, 7, 9, 8, 7, 7, 7, 7, 7]) Heap.fresh =
    .ok ((some ⟨0, [some 9, some 8]⟩, 2, 1), ⟨1, [0], fun _ => false⟩) := by rfl

/-- A consequence of judging rows only over the columns that are left: content one pixel wide is
trimmed away, what remains is a background pixel. -/
theorem trim_drops_dot :
    fcv_trim .lp64 3 3 1 (some [7, 7, 7, 7, 9, 7, 7, 7, 7]) Heap.fresh =
      .ok ((some ⟨0, [some 7]⟩, 1, 1), ⟨1, [0], fun _ => false⟩) := by rfl

/-- C09 for trim: NULL data, non-positive sizes and zero channels are rejected, the reported size
is left alone. -/
theorem trim_rejects (width height : Int) (data : Option (List UInt8)) (hp : Heap)
    (hbad : data = none ∨ width ≤ 0 ∨ height ≤ 0 ∨ ch = 0) :
    fcv_trim P width height ch data hp = .ok ((none, width, height), hp) := by
  unfold fcv_trim
  cases data with
  | none => rfl
  | some d =>
    have hz : width ≤ 0 ∨ height ≤ 0 ∨ ch = 0 := by simpa using hbad
    simp only [hz, if_true]
    rfl

/-! ### C40: trimming until nothing is left to trim -/

/-- C40 as stated in the documentation: trimming the result again changes nothing. -/
def TrimIdempotent : Prop :=
  ∀ (P : Plat) (w h ch : Nat) (d : List UInt8) (l r t b : Nat), Img P w h ch d → 0 < ch →
    w < 2 ^ 31 → h < 2 ^ 31 → w * h * ch ≤ 2 ^ 32 →
    TrimsTo (fcv_trim P w h ch (some d)) w ch d l r t b →
    TrimsTo (fcv_trim P (r - l : Nat) (b - t : Nat) ch (some (Spec.crop w ch d l t (r - l) (b - t))))
      (r - l) ch (Spec.crop w ch d l t (r - l) (b - t)) 0 (r - l) 0 (b - t)

/-- C40 is false: of a black row above a white row trim keeps the white row, two pixels wide;
trimming again leaves one pixel. -/
theorem not_trimIdempotent : ¬ TrimIdempotent := by
  intro hall
  have im : Img .lp64 2 2 1 [0, 0, 255, 255] :=
    ⟨by decide, by decide, by decide, by decide, by decide, by decide⟩
  obtain ⟨l, r, t, b, hbox, htr⟩ := trim_correct im (by decide) (by decide) (by decide) (by decide)
  have hrun : fcv_trim .lp64 2 2 1 (some [0, 0, 255, 255]) Heap.fresh =
    .ok ((some ⟨0, [some 255, some 255]⟩, 2, 1), ⟨1, [0], fun _ => false⟩) := by rfl
  have h2 := hall .lp64 2 2 1 [0, 0, 255, 255] l r t b im (by decide) (by decide) (by decide)
    (by decide) htr
  obtain ⟨res, hp', e, e1, e2, e3⟩ := htr Heap.fresh
  have e' : fcv_trim .lp64 ((2 : Nat) : Int) ((2 : Nat) : Int) 1 (some [0, 0, 255, 255]) Heap.fresh
      = .ok ((some ⟨0, [some 255, some 255]⟩, 2, 1), ⟨1, [0], fun _ => false⟩) := hrun
  rw [e'] at e
  injection e with e
  injection e with er eh
  subst er
  simp only at e1 e2 e3
  have w1 : r - l = 2 := by omega
  have w2 : b - t = 1 := by omega
  have hc : Spec.crop 2 1 [0, 0, 255, 255] l t (r - l) (b - t) = [255, 255] := by
    have := e3.2
    exact (map_some_inj (by simpa using this)).symm
  rw [hc, w1, w2] at h2
  obtain ⟨res2, hp2, g, g1, _, _⟩ := h2 Heap.fresh
  have hrun2 : fcv_trim .lp64 ((2 : Nat) : Int) ((1 : Nat) : Int) 1 (some [255, 255]) Heap.fresh =
    .ok ((some ⟨0, [some 255]⟩, 1, 1), ⟨1, [0], fun _ => false⟩) := by rfl
  rw [hrun2] at g
  injection g with g
  injection g with gr gh
  subst gr
  simp at g1

/-- C40, the part that holds for rows: the first and the last row of the result are not of a
single colour, unless only one row is left. -/
theorem trim_rows_partial {good : UInt8 → UInt8 → Prop} {g : Nat → Nat → Nat → UInt8}
    {l r t b : Nat} (hb : TrimBox good g w h ch l r t b) :
    b = t + 1 ∨ (¬ RowLike good g ch t l r ∧ ¬ RowLike good g ch (b - 1) l r) := by
  have h1 := hb.top_stop
  have h2 := hb.bottom_stop
  have h3 := hb.b_le
  have h4 := hb.t_lt
  rcases h2 with h2 | h2
  · exact Or.inl h2
  · rcases h1 with h1 | h1
    · exact Or.inl (by omega)
    · exact Or.inr ⟨h1, h2⟩

/-- C40, the part that holds for idempotence: if the first call removed no row, a second call
changes nothing. -/
theorem trim_idempotent_partial (im : Img P w h ch d) (hch : 0 < ch) (hw : w < 2 ^ 31)
    (hh : h < 2 ^ 31) (h32 : w * h * ch ≤ 2 ^ 32) {l r : Nat}
    (hbox : TrimBox Same (px w ch d) w h ch l r 0 h) :
    TrimsTo (fcv_trim P w h ch (some d)) w ch d l r 0 h ∧
    TrimsTo (fcv_trim P (r - l : Nat) h ch (some (Spec.crop w ch d l 0 (r - l) h)))
      (r - l) ch (Spec.crop w ch d l 0 (r - l) h) 0 (r - l) 0 h := by
  have hlr := hbox.l_lt
  have hrw := hbox.r_le
  constructor
  · obtain ⟨l', r', t', b', hbox', htr⟩ := trim_correct im hch hw hh h32
    obtain ⟨rfl, rfl, rfl, rfl⟩ := trimBox_unique hbox hbox'
    exact htr
  · have hmul : (r - l) * h * ch ≤ w * h * ch :=
      Nat.mul_le_mul_right _ (Nat.mul_le_mul_right _ (by omega))
    have im' : Img P (r - l) h ch (Spec.crop w ch d l 0 (r - l) h) := by
      refine ⟨by omega, im.h_pos, ?_, im.h_u32, by unfold Spec.crop; simp, ?_⟩
      · have := im.w_u32; unfold IsU32 at *; omega
      · have := im.size; have := im.len; unfold Spec.crop; simp; omega
    have hpx : ∀ x y c, x < r - l → y < h → c < ch →
        px (r - l) ch (Spec.crop w ch d l 0 (r - l) h) x y c = px w ch d (l + x) y c := by
      intro x y c hx hy hc
      unfold Spec.crop
      rw [px_mkImg hx hy hc, Nat.zero_add]
    have hh0 := im.h_pos
    have hcol : ∀ x, x < r - l →
        (ColLike Same (px (r - l) ch (Spec.crop w ch d l 0 (r - l) h)) ch x 0 h ↔
          ColLike Same (px w ch d) ch (l + x) 0 h) := by
      intro x hx
      unfold ColLike
      constructor
      · intro hc y h1 h2 c h3
        have := hc y h1 h2 c h3
        rwa [hpx x y c hx h2 h3, hpx x 0 c hx hh0 h3] at this
      · intro hc y h1 h2 c h3
        rw [hpx x y c hx h2 h3, hpx x 0 c hx hh0 h3]
        exact hc y h1 h2 c h3
    have hrow : ∀ y, y < h →
        (RowLike Same (px (r - l) ch (Spec.crop w ch d l 0 (r - l) h)) ch y 0 (r - l) ↔
          RowLike Same (px w ch d) ch y l r) := by
      intro y hy
      unfold RowLike
      constructor
      · intro hc x h1 h2 c h3
        have := hc (x - l) (by omega) (by omega) c h3
        rw [hpx (x - l) y c (by omega) hy h3, hpx 0 y c (by omega) hy h3] at this
        rwa [show l + (x - l) = x by omega, Nat.add_zero] at this
      · intro hc x h1 h2 c h3
        rw [hpx x y c h2 hy h3, hpx 0 y c (by omega) hy h3, Nat.add_zero]
        exact hc (l + x) (by omega) (by omega) c h3
    have hbox2 : TrimBox Same (px (r - l) ch (Spec.crop w ch d l 0 (r - l) h)) (r - l) h ch
        0 (r - l) 0 h := by
      refine ⟨by omega, le_rfl, im.h_pos, le_rfl, fun x hx => by omega, ?_,
        fun x h1 h2 => by omega, ?_, fun y hy => by omega, ?_, fun y h1 h2 => by omega, ?_⟩
      · rcases hbox.left_stop with hs | hs
        · exact Or.inl (by omega)
        · exact Or.inr fun hc => hs (by simpa using (hcol 0 (by omega)).1 hc)
      · rcases hbox.right_stop with hs | hs
        · exact Or.inl (by omega)
        · refine Or.inr fun hc => hs ?_
          have := (hcol (r - l - 1) (by omega)).1 hc
          rwa [show l + (r - l - 1) = r - 1 by omega] at this
      · rcases hbox.top_stop with hs | hs
        · exact Or.inl hs
        · exact Or.inr fun hc => hs ((hrow 0 im.h_pos).1 hc)
      · rcases hbox.bottom_stop with hs | hs
        · exact Or.inl hs
        · exact Or.inr fun hc => hs ((hrow (h - 1) (by omega)).1 hc)
    obtain ⟨l', r', t', b', hbox', htr⟩ := trim_correct im' hch (by omega) hh (by omega)
    obtain ⟨rfl, rfl, rfl, rfl⟩ := trimBox_unique hbox2 hbox'
    exact htr

/-! ### C71: sizes beyond 2^32 bytes -/

/-- C71 as stated: the specification of C39 for every size the function accepts. -/
def TrimAnySize : Prop :=
  ∀ (P : Plat) (w h ch : Nat) (d : List UInt8), Img P w h ch d → 0 < ch →
    w < 2 ^ 31 → h < 2 ^ 31 →
    ∃ l r t b, TrimBox Same (px w ch d) w h ch l r t b ∧
      TrimsTo (fcv_trim P w h ch (some d)) w ch d l r t b

/-- A gray image of 65536 × 65537 zeros with a single 1 at the start of the last row. -/
def bigDot : List UInt8 := List.replicate 4294967296 0 ++ (1 :: List.replicate 65535 0)

theorem bigDot_lt {k : Nat} (hk : k < 4294967296) : bigDot[k]? = some 0 := by
  unfold bigDot
  rw [List.getElem?_append_left (by rw [List.length_replicate]; exact hk),
    List.getElem?_replicate, if_pos hk]

theorem bigDot_at : bigDot[4294967296]? = some 1 := by
  unfold bigDot
  rw [List.getElem?_append_right (by rw [List.length_replicate]), List.length_replicate]
  rfl

theorem bigDot_gt {k : Nat} (h1 : 4294967296 < k) (h2 : k < 4295032832) : bigDot[k]? = some 0 := by
  unfold bigDot
  rw [List.getElem?_append_right (by rw [List.length_replicate]; omega), List.length_replicate]
  obtain ⟨j, rfl⟩ : ∃ j, k = 4294967296 + 1 + j := ⟨k - 4294967297, by omega⟩
  rw [show 4294967296 + 1 + j - 4294967296 = j + 1 by omega, List.getElem?_cons_succ,
    List.getElem?_replicate, if_pos (by omega)]

theorem bigDot_length : bigDot.length = 4295032832 := by
  unfold bigDot
  rw [List.length_append, List.length_cons, List.length_replicate, List.length_replicate]

theorem bigDot_img : Img .lp64 65536 65537 1 bigDot :=
  ⟨by decide, by decide, by decide, by decide, bigDot_length, by
    rw [bigDot_length]; decide⟩

/-- C71 is false: the 32-bit offsets wrap, trim looks at the wrong rows and cuts away the only
pixel that differs. -/
theorem not_trimAnySize : ¬ TrimAnySize := by
  intro hall
  have im := bigDot_img
  obtain ⟨l, r, t, b, hbox, htr⟩ := hall .lp64 65536 65537 1 bigDot im (by decide) (by decide)
    (by decide)
  -- what the code sees is black
  have hreads : Reads bigDot 65536 65537 1 (fun _ _ _ => 0) := by
    intro x y c hx hy hc
    refine rdIn_ok (bigDot_lt ?_)
    have : trimIdx 65536 1 y x < 4294967296 := u32_lt _
    omega
  obtain ⟨l', r', t', b', hbox', htr'⟩ := trimWith_trims (good := sameChannel) im (by decide)
    (by decide) (by decide) hreads
  rw [rel_same] at hbox'
  have a1 : l' + 1 = 65536 := by
    rcases hbox'.left_stop with h | h
    · exact h
    · exact absurd (fun y _ _ c _ => rfl) h
  have a2 : t' + 1 = 65537 := by
    rcases hbox'.top_stop with h | h
    · exact h
    · exact absurd (fun y _ _ c _ => rfl) h
  have a3 := hbox'.l_lt
  have a4 := hbox'.r_le
  have a5 := hbox'.t_lt
  have a6 := hbox'.b_le
  -- the true picture
  have p0 : px 65536 1 bigDot 0 0 0 = 0 := by
    unfold px; rw [show (0 * 65536 + 0) * 1 + 0 = 0 by omega, bigDot_lt (by decide)]; rfl
  have p1 : px 65536 1 bigDot 0 65536 0 = 1 := by
    unfold px; rw [show (65536 * 65536 + 0) * 1 + 0 = 4294967296 by omega, bigDot_at]; rfl
  have pz : ∀ x y, 0 < x → x < 65536 → y < 65537 → px 65536 1 bigDot x y 0 = 0 := by
    intro x y h1 h2 h3
    unfold px
    by_cases hy : y = 65536
    · rw [bigDot_gt (by omega) (by omega)]; rfl
    · rw [bigDot_lt (by omega)]; rfl
  have hl0 : l = 0 := by
    by_contra hne
    have := hbox.left 0 (by omega) 65536 (by omega) (by omega) 0 (by omega)
    rw [p0, p1] at this
    exact absurd this (by unfold Same; decide)
  subst hl0
  have hr1 : r = 1 := by
    have := hbox.l_lt
    have := hbox.r_le
    rcases hbox.right_stop with h | h
    · exact h
    · by_contra hne
      refine h fun y _ hy c hc => ?_
      have : c = 0 := by omega
      subst this
      rw [pz (r - 1) y (by omega) (by omega) hy, pz (r - 1) 0 (by omega) (by omega) (by omega)]
      rfl
  subst hr1
  have ht1 : t + 1 = 65537 := by
    rcases hbox.top_stop with h | h
    · exact h
    · refine absurd (fun x h1 h2 c hc => ?_) h
      have : x = 0 := by omega
      subst this
      rfl
  have hb1 := hbox.b_le
  have hb2 := hbox.t_lt
  -- same call, two different answers
  obtain ⟨res, hp', e, _, _, e3⟩ := htr Heap.fresh
  obtain ⟨res', hp'', e', _, _, e3'⟩ := htr' Heap.fresh
  have hdef : fcv_trim .lp64 ((65536 : Nat) : Int) ((65537 : Nat) : Int) 1 (some bigDot) =
      trimWith sameChannel .lp64 bigDot ((65536 : Nat) : Int) ((65537 : Nat) : Int) 1 := by
    unfold fcv_trim
    simp
  rw [hdef, e'] at e
  injection e with e
  injection e with er eh
  subst er eh
  cases hr : res'.1 with
  | none =>
    rw [hr] at e3
    obtain ⟨_, _, _, i, _, _, hi⟩ := e3
    cases hi
  | some buf =>
    rw [hr] at e3 e3'
    have hEq := map_some_inj (e3.2.symm.trans e3'.2)
    have q1 : px 1 1 (Spec.crop 65536 1 bigDot 0 t (1 - 0) (b - t)) 0 0 0 = 1 := by
      unfold Spec.crop
      rw [px_mkImg (by omega) (by omega) (by omega)]
      rw [show t + 0 = 65536 by omega]
      exact p1
    have q2 : px 1 1 (Spec.crop 65536 1 bigDot l' t' (r' - l') (b' - t')) 0 0 0 = 0 := by
      unfold Spec.crop
      rw [show r' - l' = 1 by omega, px_mkImg (by omega) (by omega) (by omega)]
      exact pz (l' + 0) (t' + 0) (by omega) (by omega) (by omega)
    rw [hEq, q2] at q1
    exact absurd q1 (by decide)

/-! ### C41: trimming with a tolerance -/

/-- The percentage after clamping to 0 … 100. -/
def clampPct (t : ℚ) : ℚ := if t < 0 then 0 else if t > 100 then 100 else t

theorem clampPct_range (t : ℚ) : 0 ≤ clampPct t ∧ clampPct t ≤ 100 := by
  unfold clampPct
  split_ifs with h1 h2
  · norm_num
  · norm_num
  · push Not at h1 h2; exact ⟨h1, h2⟩

/-- C41: the tolerance is `⌊2.55 t⌋` for the clamped percentage `t`, up to floating-point error
when `2.55 t` is just below an integer. -/
theorem trim_tolerance (t : ℚ) : ∃ tol, trimTolerance t = .ok tol ∧
    ⌊clampPct t * 255 / 100⌋ ≤ tol.toNat ∧
    (tol.toNat : ℤ) ≤ ⌊clampPct t * 255 / 100 + 1 / 2 ^ 40⌋ := by
  obtain ⟨h0, h100⟩ := clampPct_range t
  have hcl : (if (if t < 0 then (0 : ℚ) else t) > 100 then 100 else if t < 0 then 0 else t)
      = clampPct t := by
    unfold clampPct
    by_cases h : t < 0
    · simp [h]
    · simp [h]
  have hint : ∀ m : ℤ, |m| ≤ 25500 → Fmt.b64.rnd (m : ℚ) = m := fun m hm =>
    rnd64_int (by omega)
  unfold trimTolerance
  simp only [hcl]
  generalize clampPct t = q at h0 h100
  have ha0 : 0 ≤ Fmt.b64.rnd (q * 255) := rnd_nonneg _ (by positivity)
  have ha1 : Fmt.b64.rnd (q * 255) ≤ 25500 :=
    rnd_le _ (by linarith) (by have := hint 25500 (by norm_num); exact_mod_cast this)
  have hae := rnd64_err (q * 255)
  rw [f64_ok (by rw [abs_of_nonneg (by positivity)]; norm_num; linarith)]
  simp only [ok_bind]
  set a := Fmt.b64.rnd (q * 255) with hadef
  have hb0 : 0 ≤ Fmt.b64.rnd (a / 100) := rnd_nonneg _ (by positivity)
  have hb1 : Fmt.b64.rnd (a / 100) ≤ 255 :=
    rnd_le _ (by linarith) (by have := hint 255 (by norm_num); exact_mod_cast this)
  have hbe := rnd64_err (a / 100)
  rw [f64div_ok (by norm_num) (by rw [abs_of_nonneg (by positivity)]; norm_num; linarith)]
  simp only [ok_bind]
  rw [castU8_ok hb0 (by linarith)]
  refine ⟨_, rfl, ?_⟩
  set b := Fmt.b64.rnd (a / 100) with hbdef
  have hfl0 : 0 ≤ ⌊b⌋ := Int.floor_nonneg.2 hb0
  have hfl1 : ⌊b⌋ < 256 := Int.floor_lt.2 (by push_cast; linarith)
  have htol : ((u8OfInt ⌊b⌋).toNat : ℤ) = ⌊b⌋ := by
    unfold u8OfInt
    rw [UInt8.toNat_ofNat']
    omega
  rw [htol]
  constructor
  · -- integers survive both roundings
    rw [Int.le_floor]
    have hk : ((⌊q * 255 / 100⌋ : ℤ) : ℚ) ≤ q * 255 / 100 := Int.floor_le _
    have hk0 : 0 ≤ ⌊q * 255 / 100⌋ := Int.floor_nonneg.2 (by positivity)
    have hk1 : ⌊q * 255 / 100⌋ ≤ 255 := by
      have : ((⌊q * 255 / 100⌋ : ℤ) : ℚ) ≤ 255 := by linarith
      exact_mod_cast this
    generalize ⌊q * 255 / 100⌋ = k at *
    have h1 : ((k * 100 : ℤ) : ℚ) ≤ a :=
      le_rnd _ (by push_cast; linarith) (hint _ (by rw [abs_of_nonneg (by omega)]; omega))
    exact le_rnd _ (by push_cast at h1; linarith) (hint _ (by rw [abs_of_nonneg hk0]; omega))
  · refine Int.floor_mono ?_
    have hsmall : (1 : ℚ) / 2 ^ 1075 ≤ 1 / 2 ^ 50 :=
      one_div_le_one_div_of_le (by positivity) (pow_le_pow_right₀ (by norm_num) (by norm_num))
    rw [abs_le, abs_of_nonneg (by positivity)] at hae hbe
    have e1 := hae.2
    have e2 := hbe.2
    generalize (1 : ℚ) / 2 ^ 1075 = ε at *
    norm_num at e1 e2 hsmall ⊢
    linarith

/-- C41: whole percentages give exactly `⌊2.55 n⌋`. -/
theorem trim_tolerance_int (n : ℕ) (hn : n ≤ 100) : ∃ tol, trimTolerance n = .ok tol ∧
    tol.toNat = n * 255 / 100 := by
  obtain ⟨tol, e, h1, h2⟩ := trim_tolerance n
  refine ⟨tol, e, ?_⟩
  have hc : clampPct (n : ℚ) = n := by
    unfold clampPct
    rw [if_neg (by push Not; positivity), if_neg (by push Not; exact_mod_cast hn)]
  rw [hc] at h1 h2
  have e1 : ⌊(n : ℚ) * 255 / 100⌋ = ((n * 255 / 100 : ℕ) : ℤ) := by
    rw [Int.floor_eq_iff]
    have hm := Nat.div_add_mod (n * 255) 100
    have hl := Nat.mod_lt (n * 255) (by norm_num : 0 < 100)
    generalize n * 255 / 100 = k at *
    generalize n * 255 % 100 = j at *
    have hq : (n : ℚ) * 255 = 100 * k + j := by exact_mod_cast hm.symm
    have hj : (j : ℚ) ≤ 99 := by exact_mod_cast (by omega : j ≤ 99)
    have hj0 : (0 : ℚ) ≤ j := by positivity
    push_cast
    constructor <;> linarith
  have e2 : ⌊(n : ℚ) * 255 / 100 + 1 / 2 ^ 40⌋ = ((n * 255 / 100 : ℕ) : ℤ) := by
    rw [Int.floor_eq_iff]
    have hm := Nat.div_add_mod (n * 255) 100
    have hl := Nat.mod_lt (n * 255) (by norm_num : 0 < 100)
    generalize n * 255 / 100 = k at *
    generalize n * 255 % 100 = j at *
    have hq : (n : ℚ) * 255 = 100 * k + j := by exact_mod_cast hm.symm
    have hj : (j : ℚ) ≤ 99 := by exact_mod_cast (by omega : j ≤ 99)
    have hj0 : (0 : ℚ) ≤ j := by positivity
    push_cast
    norm_num
    constructor <;> linarith
  rw [e1] at h1
  rw [e2] at h2
  omega

/-- C41: NaN and infinities are rejected. -/
theorem trim_threshold_rejects (width height : Int) (data : Option (List UInt8)) (t : Dbl)
    (hp : Heap) (hbad : data = none ∨ width ≤ 0 ∨ height ≤ 0 ∨ ch = 0 ∨ ∀ q, t ≠ .fin q) :
    fcv_trim_threshold P width height ch data t hp = .ok ((none, width, height), hp) := by
  unfold fcv_trim_threshold
  cases data with
  | none => rfl
  | some d =>
    by_cases hz : width ≤ 0 ∨ height ≤ 0 ∨ ch = 0
    · simp only [hz, if_true]; rfl
    · simp only [hz, if_false]
      cases t with
      | nan => rfl
      | inf _ => rfl
      | fin q =>
        exfalso
        rcases hbad with h | h | h | h | h
        · cases h
        · exact hz (Or.inl h)
        · exact hz (Or.inr (Or.inl h))
        · exact hz (Or.inr (Or.inr h))
        · exact h q rfl

/-- C41: percentages above 100 act as 100, negative ones as 0. -/
theorem trim_threshold_clamps (width height : Int) (data : Option (List UInt8)) (q : ℚ) :
    fcv_trim_threshold P width height ch data (.fin q) =
      fcv_trim_threshold P width height ch data (.fin (clampPct q)) := by
  have : trimTolerance q = trimTolerance (clampPct q) := by
    unfold trimTolerance clampPct
    by_cases h1 : q < 0
    · simp [h1]
    · by_cases h2 : q > 100
      · have h3 : ¬ (100 : ℚ) < 0 := by norm_num
        simp [h1, h2, h3]
      · simp [h1, h2]
  unfold fcv_trim_threshold
  simp only [this]

/-- C41: percentages up to 0.392 (and negative ones) behave as `fcv_trim`. -/
theorem trim_threshold_small (im : Img P w h ch d) (hch : 0 < ch) {q : ℚ} (hq : q ≤ 392 / 1000) :
    fcv_trim_threshold P w h ch (some d) (.fin q) = fcv_trim P w h ch (some d) := by
  have z : ¬ ((w : Int) ≤ 0 ∨ (h : Int) ≤ 0 ∨ ch = 0) := by
    have := im.w_pos; have := im.h_pos; omega
  obtain ⟨tol, e, _, h2⟩ := trim_tolerance q
  have hlt : ⌊clampPct q * 255 / 100 + 1 / 2 ^ 40⌋ < 1 := by
    rw [Int.floor_lt]
    have : clampPct q ≤ 392 / 1000 := by
      unfold clampPct
      split_ifs with h1 h2
      · norm_num
      · exfalso; linarith
      · exact hq
    norm_num
    linarith
  have h0 : tol = 0 := by
    rw [← UInt8.toNat_inj]
    simp only [UInt8.toNat_ofNat, Nat.reducePow, Nat.zero_mod]
    omega
  subst h0
  unfold fcv_trim_threshold
  simp only [z, if_false, e]
  funext hp
  simp [hm_bind, use, Except.map]

/-- C41: otherwise the removed lines are those within the tolerance of their first pixel. -/
theorem trim_threshold_correct (im : Img P w h ch d) (hch : 0 < ch) (hw : w < 2 ^ 31)
    (hh : h < 2 ^ 31) (h32 : w * h * ch ≤ 2 ^ 32) {q : ℚ} {tol : UInt8}
    (ht : trimTolerance q = .ok tol) :
    ∃ l r t b, TrimBox (Within tol.toNat) (px w ch d) w h ch l r t b ∧
      TrimsTo (fcv_trim_threshold P w h ch (some d) (.fin q)) w ch d l r t b := by
  have z : ¬ ((w : Int) ≤ 0 ∨ (h : Int) ≤ 0 ∨ ch = 0) := by
    have := im.w_pos; have := im.h_pos; omega
  by_cases h0 : tol = 0
  · subst h0
    obtain ⟨l, r, t, b, hbox, htr⟩ := trim_correct im hch hw hh h32
    refine ⟨l, r, t, b, ?_, ?_⟩
    · have : Within (0 : UInt8).toNat = Same := by
        funext a b
        have : a = b ↔ a.toNat = b.toNat := UInt8.toNat_inj.symm
        simp only [Within, Same, UInt8.toNat_zero, Nat.add_zero, eq_iff_iff, this]
        omega
      rw [this]; exact hbox
    · have : fcv_trim_threshold P w h ch (some d) (.fin q) = fcv_trim P w h ch (some d) := by
        unfold fcv_trim_threshold
        simp only [z, if_false, ht]
        funext hp
        simp [hm_bind, use, Except.map]
      rw [this]; exact htr
  · obtain ⟨l, r, t, b, hbox, htr⟩ := trimWith_trims (good := closeChannel tol) im hch (by omega)
      (by omega) (reads_px im (by omega))
    rw [rel_close] at hbox
    refine ⟨l, r, t, b, hbox, ?_⟩
    have : fcv_trim_threshold P w h ch (some d) (.fin q)
        = trimWith (closeChannel tol) P d w h ch := by
      unfold fcv_trim_threshold
      simp only [z, if_false, ht]
      funext hp
      simp [hm_bind, use, Except.map, h0]
    rw [this]; exact htr

/-- The hypotheses of `trim_threshold_correct` are met: 2 % is a tolerance of 5. -/
example : ∃ tol, trimTolerance 2 = .ok tol ∧ tol.toNat = 5 := by
  have := trim_tolerance_int 2 (by norm_num)
  exact_mod_cast this

end FlatCV.Props
