/-
The PNG decoder on valid files: sizes, samples and colours, and the whole file.
-/
import Verif.Lemmas.PngValid

namespace FlatCV
open Model Png

/-! ### Sizes -/

theorem sizes_fit {n outN x y depth : Nat} (hd : depth ∈ [1, 2, 4, 8, 16]) (hn : n ≤ 4) (ho : outN ≤ 4) (hx : x ≤ 16777216) (hy0 : 0 < y) (hy : y ≤ 16777216) (ha : x * y ≤ 200000000) :
    RawFits n outN x y depth ∧ (x * depth + 7) / 8 * y * n + y < 2147483648 := by
  have hs : sampleBytes depth ≤ 2 := by rw [sampleBytes]; split_ifs <;> omega
  have h1 : x * y * (outN * sampleBytes depth) ≤ x * y * (4 * 2) := Nat.mul_le_mul_left _ (Nat.mul_le_mul ho hs)
  have hd16 : depth ≤ 16 := by rcases depth_cases hd with e | e | e | e | e <;> omega
  have h2 : n * x * depth ≤ 4 * x * 16 := Nat.mul_le_mul (Nat.mul_le_mul_right _ hn) hd16
  have h3 : rowBytes depth n x ≤ 8 * x + 0 := by
    rw [rowBytes]
    omega
  have h4 : rowBytes depth n x * y ≤ 8 * x * y := Nat.mul_le_mul_right _ h3
  have h5 : 8 * x * y = x * y * 8 := by ring
  have h6 : x * depth ≤ x * 16 := Nat.mul_le_mul_left _ hd16
  have h7 : (x * depth + 7) / 8 ≤ x * 2 := by omega
  have h8 : (x * depth + 7) / 8 * y * n ≤ x * 2 * y * 4 := Nat.mul_le_mul (Nat.mul_le_mul_right _ h7) hn
  have h9 : x * 2 * y * 4 = x * y * 8 := by ring
  exact ⟨⟨by omega, by omega, by omega, by omega⟩, by omega⟩

theorem size_fits {t : PState} (H : HdrOk t) (ha : t.x * t.y ≤ 200000000) : SizeFits t ∧ (t.x * t.depth + 7) / 8 * t.y * t.n + t.y < 2147483648 := by
  have h := H.kind
  have h2 : outChannels t ≤ 4 := by
    have := H.trans
    rw [outChannels]
    split_ifs with h3
    · rcases h3 with h3 | h3
      · omega
      · have := this h3
        omega
    · omega
  obtain ⟨h3, h4⟩ := sizes_fit (outN := outChannels t) H.depth (n := t.n) (by omega) h2 H.x1 H.y0 H.y1 ha
  exact ⟨⟨h3, fun _ => by omega⟩, h4⟩

/-! ### Samples -/

theorem readPass_eq {d : Header} (hd : d.depth ∈ [1, 2, 4, 8, 16]) (hn : 0 < d.samples) (h8 : d.depth < 8 → d.samples = 1) (w h : Nat) (l : List UInt8) :
    readPass d w h l = lpass d.depth d.samples w h l := by
  rw [readPass, lpass]
  have e1 : (w * d.samples * d.depth + 7) / 8 = rowBytes d.depth d.samples w := by rw [rowBytes, Nat.mul_comm w]
  have e2 : max 1 (d.samples * d.depth / 8) = filterBytes d.depth d.samples := by
    rw [filterBytes]
    rcases depth_cases hd with e | e | e | e | e <;> rw [e]
    · rw [h8 (by omega)]; rfl
    · rw [h8 (by omega)]; rfl
    · rw [h8 (by omega)]; rfl
    · rw [if_neg (by omega), if_neg (by omega)]; omega
    · rw [if_neg (by omega), if_pos rfl]; omega
  simp only [e1, e2]

theorem readPasses_eq {d : Header} (hd : d.depth ∈ [1, 2, 4, 8, 16]) (hn : 0 < d.samples) (h8 : d.depth < 8 → d.samples = 1) (g : List (Nat × Nat × Nat × Nat)) (l : List UInt8) :
    readPasses d g l = lpasses d.depth d.samples d.w d.h g l := by
  induction g generalizing l with
  | nil => rfl
  | cons a g ih =>
    obtain ⟨xo, yo, xs, ys⟩ := a
    rw [readPasses, lpasses]
    simp only [readPass_eq hd hn h8, ih]

theorem readSamples_eq {d : Header} (V : d.Valid) {l : List UInt8} {s : Samples} (h : readSamples d l = some s) : lread d.depth d.samples d.w d.h d.interlace l = some s := by
  obtain ⟨c1, c2, c3, c4⟩ := depths_cases V.depth
  have hn : 0 < d.samples := by
    rw [← samples_eq c2]
    rcases c2 with h | h | h | h | h <;> rw [h] <;> decide
  have h8 : d.depth < 8 → d.samples = 1 := by
    intro h
    rw [← samples_eq c2]
    rcases c2 with e | e | e | e | e
    · rw [e]; rfl
    · have := c3 (by omega) (by omega); omega
    · rw [e]; rfl
    · have := c3 (by omega) (by omega); omega
    · have := c3 (by omega) (by omega); omega
  rw [readSamples] at h
  rw [lread]
  split_ifs at h ⊢ with hi
  · rw [readPass_eq c1 hn h8, Option.bind_eq_some_iff] at h
    obtain ⟨⟨S, r⟩, h1, h2⟩ := h
    rw [h1]
    split_ifs at h2
    exact h2
  · rw [readPasses_eq c1 hn h8, Option.bind_eq_some_iff] at h
    obtain ⟨⟨S, r⟩, h1, h2⟩ := h
    rw [h1]
    split_ifs at h2
    exact h2

/-! ### Colours -/

/-- A sample in memory as a byte of the result. -/
def lowByte (depth q : Nat) : UInt8 := UInt8.ofNat (if depth = 16 then q / 256 % 256 else q)

theorem low_stored {depth c v : Nat} (hd : depth ∈ depthsOf c) (hc : c ≠ 3) (hv : v < 2 ^ depth) : lowByte depth (storedV depth c v) = UInt8.ofNat (to8 depth v) := by
  obtain ⟨c1, c2, c3, c4⟩ := depths_cases hd
  rw [lowByte, storedV, to8]
  rcases depth_cases c1 with e | e | e | e | e
  · have : c = 0 := by omega
    subst e this
    norm_num at hv ⊢
    have : v = 0 ∨ v = 1 := by omega
    rcases this with rfl | rfl <;> rfl
  · have : c = 0 := by omega
    subst e this
    norm_num at hv ⊢
    have : v = 0 ∨ v = 1 ∨ v = 2 ∨ v = 3 := by omega
    rcases this with rfl | rfl | rfl | rfl <;> rfl
  · have : c = 0 := by omega
    subst e this
    norm_num at hv ⊢
    congr 1
    simp [depth_scale_table]
    omega
  · subst e
    norm_num at hv ⊢
  · subst e
    norm_num at hv ⊢
    congr 1
    omega

theorem low_opaque {depth : Nat} (hd : depth ∈ [1, 2, 4, 8, 16]) : lowByte depth (opaque' depth) = 255 ∧ lowByte depth 0 = 0 := by
  rcases depth_cases hd with e | e | e | e | e <;> subst e <;> decide

theorem key_iff {depth c v : Nat} {l : List UInt8} {k : Nat} (hd : depth ∈ depthsOf c) (hc : c ≠ 3) (hv : v < 2 ^ depth) (hk : transValue l k < 2 ^ depth) :
    storedV depth c v = keyOf depth l k ↔ transValue l k = v := by
  obtain ⟨c1, c2, c3, c4⟩ := depths_cases hd
  rw [storedV, keyOf]
  generalize transValue l k = u at *
  rcases depth_cases c1 with e | e | e | e | e
  · have : c = 0 := by omega
    subst e this
    norm_num at hv hk ⊢
    simp [depth_scale_table]
    omega
  · have : c = 0 := by omega
    subst e this
    norm_num at hv hk ⊢
    simp [depth_scale_table]
    omega
  · have : c = 0 := by omega
    subst e this
    norm_num at hv hk ⊢
    simp [depth_scale_table]
    omega
  · subst e
    norm_num at hv hk ⊢
    simp [depth_scale_table]
    omega
  · subst e
    norm_num at hv hk ⊢
    exact eq_comm

/-- Component `c` of a pixel. -/
def comp (q : Nat × Nat × Nat × Nat) (c : Nat) : Nat := if c = 0 then q.1 else if c = 1 then q.2.1 else if c = 2 then q.2.2.1 else q.2.2.2

theorem rgba_bytes (px : Nat → Nat × Nat × Nat × Nat) (n : Nat) :
    (rgbaBytes px n).length = n * 4 ∧ ∀ p, p < n → ∀ c, c < 4 → (rgbaBytes px n)[p * 4 + c]? = some (UInt8.ofNat (comp (px p) c)) := by
  induction n with
  | zero => exact ⟨rfl, fun p hp => absurd hp (by omega)⟩
  | succ n ih =>
    obtain ⟨h1, h2⟩ := ih
    have e : rgbaBytes px (n + 1) = rgbaBytes px n ++ [UInt8.ofNat (px n).1, UInt8.ofNat (px n).2.1, UInt8.ofNat (px n).2.2.1, UInt8.ofNat (px n).2.2.2] := by
      rw [rgbaBytes, List.range_succ, List.flatMap_append, rgbaBytes, List.flatMap_singleton]
    rw [e]
    refine ⟨by rw [List.length_append, h1]; show n * 4 + 4 = _; omega, fun p hp c hc => ?_⟩
    by_cases hpn : p < n
    · rw [List.getElem?_append_left (by omega)]
      exact h2 p hpn c hc
    · obtain rfl : p = n := by omega
      rw [List.getElem?_append_right (by omega), h1, show p * 4 + c - p * 4 = c by omega]
      have : c = 0 ∨ c = 1 ∨ c = 2 ∨ c = 3 := by omega
      rcases this with rfl | rfl | rfl | rfl <;> rfl

theorem pal_at {pal : Cells UInt8} {q : Nat} {b : UInt8} (h : pal[q]? = some (some b)) : palByte pal q = b.toNat := by
  rw [palByte, List.getD_eq_getElem?_getD, h]
  rfl

theorem loaded_rgba {p : Parts} {D rest : List UInt8} {t : PState} {S : Samples} (V : p.Valid) (A : PngAt p.hd p.plte p.trns D rest t) {x y c : Nat} (hc : c < 4)
    (hv : ∀ k, S x y k < 2 ^ p.hd.depth) (hi : p.hd.colour = 3 → 3 * S x y 0 < (p.plte.getD []).length) :
    loadedByte t S x y c = UInt8.ofNat (comp (p.rgba (S x y)) c) := by
  have hd := V.hd.depth
  obtain ⟨c1, c2, c3, c4⟩ := depths_cases hd
  have el : ∀ q, UInt8.ofNat (if t.depth = 16 then q / 256 % 256 else q) = lowByte p.hd.depth q := by
    intro q
    rw [A.depth, lowByte]
  have hn := A.n
  rw [Header.samples] at hn
  obtain ⟨o1, o2⟩ := low_opaque c1
  have hcc : c = 0 ∨ c = 1 ∨ c = 2 ∨ c = 3 := by omega
  rw [loadedByte]
  rw [el]
  have hcol := A.color
  have hdep := A.depth
  have hpN := A.palN
  have alpha : ∀ k, p.hd.colour ≠ 3 → k < t.n → lowByte p.hd.depth (finalPix t S x y k) = UInt8.ofNat (to8 p.hd.depth (S x y k)) := by
    intro k h3 hk
    rw [finalPix, if_neg (by rw [hcol]; exact h3), alphaPix, if_pos hk, hdep, hcol]
    exact low_stored hd h3 (hv k)
  have last : ∀ b : Bool, p.hd.colour ≠ 3 → (∀ l, p.trns = some l → (b = true ↔ ∀ k, k < t.n → transValue l k = S x y k) ∧ ∀ k, k < t.n → transValue l k < 2 ^ p.hd.depth) →
      (p.trns = none → b = false) → lowByte p.hd.depth (finalPix t S x y t.n) = UInt8.ofNat (if b then 0 else 255) := by
    intro b h3 hb hb'
    rw [finalPix, if_neg (by rw [hcol]; exact h3), alphaPix, if_neg (by omega), hdep, hcol]
    cases htr : p.trns with
    | none =>
      rw [if_neg, o1, hb' htr]
      · rfl
      · rintro ⟨h, _⟩
        rw [A.trans, htr] at h
        simp at h
    | some l =>
      obtain ⟨q1, q2⟩ := hb l htr
      have e : (t.trans = true ∧ ∀ c, c < t.n → storedV p.hd.depth p.hd.colour (S x y c) = key t c) ↔ b = true := by
        rw [q1, A.trans, htr]
        simp only [Option.isSome_some, Bool.and_true, decide_eq_true_eq]
        constructor
        · rintro ⟨_, h⟩ k hk
          have := h k hk
          rw [A.key l htr h3 k hk, hdep] at this
          exact (key_iff hd h3 (hv k) (q2 k hk)).mp this
        · intro h
          refine ⟨h3, fun k hk => ?_⟩
          rw [A.key l htr h3 k hk, hdep]
          exact (key_iff hd h3 (hv k) (q2 k hk)).mpr (h k hk)
      cases b with
      | true => rw [if_pos (e.mpr rfl), o2]; rfl
      | false => rw [if_neg (fun h => by have := e.mp h; cases this), o1]; rfl
  have ho := rfl (a := outChannels t)
  nth_rewrite 2 [outChannels] at ho
  have key3 : ∀ k, transValue k = transValue k := fun _ => rfl
  rcases c2 with h | h | h | h | h
  · rw [h] at hn hpN
    have hn : t.n = 1 := hn
    have tv : ∀ l, p.trns = some l → transValue l 0 < 2 ^ p.hd.depth := by
      intro l hl
      rcases V.trns l hl with ⟨_, _, q⟩ | ⟨q, _⟩ | ⟨q, _⟩
      · exact q
      · omega
      · omega
    have z := last (p.trns.any fun l => decide (transValue l 0 = S x y 0)) (by omega) (fun l hl => ⟨by
        rw [hl, hn]
        simp only [Option.any_some, decide_eq_true_eq]
        exact ⟨fun h k hk => by obtain rfl : k = 0 := by omega
                                exact h, fun h => h 0 (by omega)⟩, fun k hk => by
        obtain rfl : k = 0 := by omega
        exact tv l hl⟩) (fun hl => by rw [hl]; rfl)
    rw [hn] at z
    have w := alpha 0 (by omega) (by omega)
    rw [if_neg (by rw [hcol, h]; omega), ho, hn, Parts.rgba, h]
    simp only
    by_cases htr : t.trans = true
    · rw [if_pos (Or.inr htr)]
      rcases hcc with rfl | rfl | rfl | rfl
      · exact w
      · exact w
      · exact w
      · exact z
    · have hno : p.trns = none := by
        have := A.trans
        rw [h] at this
        cases hq : p.trns with
        | none => rfl
        | some l =>
          rw [hq] at this
          exact absurd this htr
      rw [if_neg (by rintro (⟨h, _⟩ | h); · omega
                     · exact htr h)]
      rcases hcc with rfl | rfl | rfl | rfl
      · exact w
      · exact w
      · exact w
      · show lowByte p.hd.depth (opaque' t.depth) = _
        rw [hdep, o1, hno]
        rfl
  · rw [h] at hn hpN
    have hn : t.n = 3 := hn
    have tv : ∀ l, p.trns = some l → ∀ k, k < 3 → transValue l k < 2 ^ p.hd.depth := by
      intro l hl
      rcases V.trns l hl with ⟨q, _⟩ | ⟨_, _, q⟩ | ⟨q, _⟩
      · omega
      · exact q
      · omega
    have z := last (p.trns.any fun l => decide (transValue l 0 = S x y 0 ∧ transValue l 1 = S x y 1 ∧ transValue l 2 = S x y 2)) (by omega) (fun l hl => ⟨by
        rw [hl, hn]
        simp only [Option.any_some, decide_eq_true_eq]
        exact ⟨fun h k hk => by
          have : k = 0 ∨ k = 1 ∨ k = 2 := by omega
          rcases this with rfl | rfl | rfl
          · exact h.1
          · exact h.2.1
          · exact h.2.2, fun h => ⟨h 0 (by omega), h 1 (by omega), h 2 (by omega)⟩⟩, fun k hk => tv l hl k (by omega)⟩) (fun hl => by rw [hl]; rfl)
    rw [hn] at z
    have hpN : t.palN = 0 := hpN
    rw [if_neg (by rw [hcol, h]; omega), ho, hn, if_pos (Or.inl ⟨rfl, hpN⟩), Parts.rgba, h, four, if_pos rfl]
    rcases hcc with rfl | rfl | rfl | rfl
    · exact alpha 0 (by omega) (by omega)
    · exact alpha 1 (by omega) (by omega)
    · exact alpha 2 (by omega) (by omega)
    · exact z
  · have hi := hi h
    rw [if_pos (by rw [hcol, h]), four, if_pos rfl, finalPix, if_pos (by rw [hcol, h]), hdep, hcol, h, (stored_palette c1 (c4 h) (hv 0)).1, Parts.rgba, h, lowByte, if_neg (c4 h)]
    have hpl : (p.plte.getD []).length % 3 = 0 := by
      cases hq : p.plte with
      | none => rfl
      | some l => exact (V.plte.1 l hq).1
    obtain ⟨q1, q2⟩ := A.pal (S x y 0) (by omega)
    rw [if_pos h] at q2
    rcases hcc with rfl | rfl | rfl | rfl
    · rw [pal_at (q1 0 (by omega))]
      rfl
    · rw [pal_at (q1 1 (by omega))]
      rfl
    · rw [pal_at (q1 2 (by omega))]
      rfl
    · rw [pal_at q2]
      rfl
  · rw [h] at hn hpN
    have hn : t.n = 2 := hn
    have htr : t.trans ≠ true := by
      intro e
      have := (A.inv.hdr A.first).trans e
      omega
    rw [if_neg (by rw [hcol, h]; omega), ho, hn, if_neg (by rintro (⟨h, _⟩ | h); · omega
                                                            · exact htr h), Parts.rgba, h]
    rcases hcc with rfl | rfl | rfl | rfl
    · exact alpha 0 (by omega) (by omega)
    · exact alpha 0 (by omega) (by omega)
    · exact alpha 0 (by omega) (by omega)
    · exact alpha 1 (by omega) (by omega)
  · rw [h] at hn hpN
    have hn : t.n = 4 := hn
    have htr : t.trans ≠ true := by
      intro e
      have := (A.inv.hdr A.first).trans e
      omega
    rw [if_neg (by rw [hcol, h]; omega), ho, hn, if_neg (by rintro (⟨h, _⟩ | h); · omega
                                                            · exact htr h), Parts.rgba, h, four, if_pos rfl]
    rcases hcc with rfl | rfl | rfl | rfl
    · exact alpha 0 (by omega) (by omega)
    · exact alpha 1 (by omega) (by omega)
    · exact alpha 2 (by omega) (by omega)
    · exact alpha 3 (by omega) (by omega)

/-! ### The file -/

theorem cells_eq {w h : Nat} {c : Cells UInt8} {l : List UInt8} (h1 : c.length = w * h * 4) (h2 : l.length = w * h * 4)
    (h3 : ∀ p, p < w * h → ∀ k, k < 4 → c[p * 4 + k]? = (l[p * 4 + k]?).map some) : c = l.map some := by
  apply List.ext_getElem?
  intro q
  rw [List.getElem?_map]
  by_cases hq : q < w * h * 4
  · have := h3 (q / 4) (by omega) (q % 4) (by omega)
    rwa [show q / 4 * 4 + q % 4 = q by omega] at this
  · rw [List.getElem?_eq_none (by omega), List.getElem?_eq_none (by omega)]
    rfl

/-- Reading starts after the signature. -/
theorem do_png_eq {file rest : List UInt8} (h : file = [137, 80, 78, 71, 13, 10, 26, 10] ++ rest) :
    (check_png_header (start_file file)).1 = true ∧ Next (start_file file) (check_png_header (start_file file)).2 rest := by
  obtain ⟨h1, h2, h3⟩ := start_next file
  rw [if_neg (by rw [h]; simp), List.append_nil] at h3
  obtain ⟨c1, c2⟩ := check_next h1
  have hc : (check_png_header (start_file file)).1 = true := c1.mpr fun k hk => by
    rw [h3, h, getD_left (by exact hk)]
    rfl
  refine ⟨hc, ?_⟩
  have := c2 hc
  rw [h3] at this
  have e : file.drop 8 = rest := by rw [h]; rfl
  rwa [e] at this

/-- The chunks of a valid file. -/
theorem parse_valid {m : PngMem} {file : List UInt8} {p : Parts} {s : Samples} (P : IsPng file p s) (hw : p.hd.w ≤ 16777216) (hh : p.hd.h ≤ 16777216)
    (ha : p.hd.w * p.hd.h * (if p.hd.colour = 3 then 4 else p.hd.samples) ≤ 1073741824)
    (hF : ∀ t D rest, PngAt p.hd p.plte p.trns D rest t → SizeFits t ∧ (t.x * t.depth + 7) / 8 * t.y * t.n + t.y < 2147483648)
    (hi : ∀ l ∈ p.idat, l.length ≤ 1073741824) (ht : p.idat.flatten.length < 2147483648)
    (hr : ∀ raw, zlibDecode p.idat.flatten = some raw → raw.length < 2147483648) (M : MemGood m) :
    (check_png_header (start_file file)).1 = true ∧ ∃ d t rest, parse_png_file m (start_file file) = .ok (some d) ∧ PngAt p.hd p.plte p.trns p.idat.flatten rest t ∧ Shown t s d ∧
      ∀ x y c, s x y c < 2 ^ p.hd.depth := by
  obtain ⟨hb, V, ⟨raw, hz, hS⟩, hx⟩ := P
  have hr := hr raw hz
  have hb' : file = [137, 80, 78, 71, 13, 10, 26, 10] ++ (pngChunk (tag "IHDR") p.hd.bytes ++ (chunks p.a1 ++ (optChunk (tag "PLTE") p.plte ++ (chunks p.a2 ++
      (optChunk (tag "tRNS") p.trns ++ (chunks p.a3 ++ (chunks (p.idat.map fun l => (tag "IDAT", l)) ++ (chunks p.a4 ++ (pngChunk (tag "IEND") [] ++ []))))))))) := by
    rw [hb, Parts.bytes]
    simp only [List.append_assoc, List.append_nil]
  obtain ⟨h1, h2⟩ := do_png_eq hb'
  have hlr := readSamples_eq V.hd hS
  have hD : p.idat.flatten ≠ [] := by
    intro e
    rw [e] at hz
    cases hz
  have hplt : p.hd.colour = 3 → 3 ≤ (p.plte.getD []).length := by
    intro h
    cases hq : p.plte with
    | none => exact absurd hq (V.plte.2 h)
    | some l =>
      have := V.plte.1 l hq
      show 3 ≤ l.length
      omega
  have hp3 : (p.plte.getD []).length % 3 = 0 := by
    cases hq : p.plte with
    | none => rfl
    | some l => exact (V.plte.1 l hq).1
  have main : Parses m (PState.start (check_png_header (start_file file)).2) fun r => ∃ d t' rest, r = some d ∧ PngAt p.hd p.plte p.trns p.idat.flatten rest t' ∧ Shown t' s d ∧ SizeFits t' := by
    obtain ⟨t1, e1, A1, i1⟩ := PngAt.ihdr (m := m) V.hd hw hh ha h2.ok h2.rem
    refine Parses.step (start_inv h2.ok) e1 fun _ => ?_
    refine PngAt.ancillaries V.a1 (· = []) (fun t2 A2 i2 => ?_) A1 i1
    have fin : ∀ t, PngAt p.hd p.plte p.trns [] (chunks p.a3 ++ (chunks (p.idat.map fun l => (tag "IDAT", l)) ++ (chunks p.a4 ++ (pngChunk (tag "IEND") [] ++ [])))) t → t.idata = [] →
        Parses m t fun r => ∃ d t' rest, r = some d ∧ PngAt p.hd p.plte p.trns p.idat.flatten rest t' ∧ Shown t' s d ∧ SizeFits t' := by
      intro t A i
      refine PngAt.ancillaries V.a3 (· = []) (fun t A _ => ?_) A i
      refine PngAt.idats M hi (by simpa using ht) hplt (fun t A => ?_) A
      refine PngAt.ancillaries V.a4 (fun _ => True) (fun t A _ => ?_) A trivial
      obtain ⟨F, hg⟩ := hF _ _ _ A
      intro f hf
      refine (PngAt.iend (m := m) (raw := raw) (S := s) M A hD F hg hz hr ?_ ?_ f hf).mono ?_
      · rw [A.depth, A.n, A.x, A.y, A.interlace]
        exact hlr
      · intro hc i j hi hj
        rw [A.color] at hc
        rw [A.x] at hi
        rw [A.y] at hj
        have := hx hc i j hi hj
        rw [A.palLen]
        omega
      · rintro r ⟨d, t', e, q1, q2, _, q3⟩
        exact ⟨d, t', _, e, q1, q2, q3⟩
    have trn : ∀ t, PngAt p.hd p.plte none [] (chunks p.a2 ++ (optChunk (tag "tRNS") p.trns ++ (chunks p.a3 ++ (chunks (p.idat.map fun l => (tag "IDAT", l)) ++ (chunks p.a4 ++ (pngChunk (tag "IEND") [] ++ [])))))) t →
        t.idata = [] → Parses m t fun r => ∃ d t' rest, r = some d ∧ PngAt p.hd p.plte p.trns p.idat.flatten rest t' ∧ Shown t' s d ∧ SizeFits t' := by
      intro t A i
      refine PngAt.ancillaries V.a2 (· = []) (fun t A i => ?_) A i
      cases hq : p.trns with
      | none =>
        rw [hq] at A fin
        exact fin t A i
      | some l =>
        have A' := A
        rw [hq] at A'
        obtain ⟨t', e, A'', i'⟩ := PngAt.trns (m := m) V.plte V.trns hq A' i
        have := fin t' A'' (i'.trans i)
        rw [hq] at this
        exact Parses.step A.inv e fun _ => this
    cases hq : p.plte with
    | none =>
      rw [hq] at A2 trn
      exact trn t2 A2 i2
    | some l =>
      rw [hq] at A2
      obtain ⟨q1, _, q3, _⟩ := V.plte.1 l hq
      obtain ⟨t', e, A'', i'⟩ := PngAt.plte (m := m) q1 q3 A2
      rw [hq] at trn
      exact Parses.step A2.inv e fun _ => trn t' A'' (i'.trans i2)
  obtain ⟨r, hr1, d, t, rest, rfl, A, hSh, F⟩ := main (((check_png_header (start_file file)).2).file.length + 2) (by
    show (Ctx.rem (check_png_header (start_file file)).2).length < _
    have hlen : ∀ r, file = [137, 80, 78, 71, 13, 10, 26, 10] ++ r → r.length < file.length + 2 := by
      rintro r rfl
      rw [List.length_append]
      omega
    rw [h2.file, (start_next file).2.1, h2.rem]
    exact hlen _ hb')
  refine ⟨h1, d, t, rest, ?_, A, hSh, lread_lt hlr⟩
  rw [parse_png_file]
  simp only
  rw [if_pos h1, hr1]

theorem do_png_parse {m : PngMem} {file : List UInt8} {d : Model.Decoded} {other : CM (Option Loaded)} (h1 : (check_png_header (start_file file)).1 = true)
    (h : parse_png_file m (start_file file) = .ok (some d)) : stbi_load m other file = convertAll m d := by
  rw [stbi_load, if_pos h1]
  have e : do_png m (start_file file) = (parse_png_file m (start_file file) >>= fun r => match r with | none => pure none | some d => convertAll m d) := rfl
  rw [e, h, ok_bind]

theorem load_valid {m : PngMem} {other : CM (Option Loaded)} {file : List UInt8} {p : Parts} {s : Samples} (P : IsPng file p s) (hw : p.hd.w ≤ 16777216) (hh : p.hd.h ≤ 16777216)
    (ha : p.hd.w * p.hd.h ≤ 200000000) (hi : ∀ l ∈ p.idat, l.length ≤ 1073741824) (ht : p.idat.flatten.length < 2147483648)
    (hr : ∀ raw, zlibDecode p.idat.flatten = some raw → raw.length < 2147483648) (M : MemGood m) :
    stbi_load m other file = .ok (some ⟨p.hd.w, p.hd.h, p.channels, (p.image s).map some⟩) := by
  obtain ⟨h1, d, t, rest, hp, A, hSh, hlt⟩ := parse_valid (m := m) P hw hh (by
    have : (if p.hd.colour = 3 then 4 else p.hd.samples) ≤ 4 := by
      rw [Header.samples]
      split_ifs
      · omega
      · split <;> omega
    have := Nat.mul_le_mul_left (p.hd.w * p.hd.h) this
    omega) (fun t D rest A => size_fits (A.inv.hdr A.first) (by rw [A.x, A.y]; exact ha)) hi ht hr M
  obtain ⟨hb, V, ⟨raw, hz, hS⟩, hx⟩ := P
  have H := A.inv.hdr A.first
  rw [do_png_parse h1 hp]
  have hx0 : p.hd.w * p.hd.h = t.x * t.y := by rw [A.x, A.y]
  obtain ⟨o, ho, g1, g2⟩ := (convert_ok (m := m) H hSh).ok (by rintro e ⟨_, _, _, _, h⟩; omega)
  rw [ho]
  cases o with
  | none => exact absurd (g2 rfl M (by omega)) id
  | some L =>
    have hL := g1 L rfl
    have e4 : L.data = (p.image s).map some := by
      obtain ⟨k1, k2⟩ := rgba_bytes (fun i => p.rgba (s (i % p.hd.w) (i / p.hd.w))) (p.hd.w * p.hd.h)
      refine cells_eq (w := t.x) (h := t.y) hL.len (by rw [Parts.image, k1, hx0]) fun q hq k hk => ?_
      rw [hL.data q hq k hk, Parts.image, k2 q (by rw [hx0]; exact hq) k hk, ← A.x]
      rw [loaded_rgba V A hk (fun c => hlt _ _ _) fun h => ?_]
      · rfl
      · have hy : q / t.x < t.y := Nat.div_lt_of_lt_mul hq
        have hxm : q % t.x < t.x := Nat.mod_lt _ H.x0
        exact hx h _ _ (by rw [← A.x]; exact hxm) (by rw [← A.y]; exact hy)
    have e3 : L.n = p.channels := by
      rw [hL.n, Parts.channels, A.color, A.palN, A.trans, A.n]
      by_cases h3 : p.hd.colour = 3
      · rw [if_pos h3, if_pos h3, if_pos h3]
        split_ifs <;> rfl
      · rw [if_neg h3, if_neg h3]
        cases hq : p.trns with
        | none => simp
        | some l => simp [h3]
    obtain ⟨lx, ly, ln, ld⟩ := L
    have e1 : lx = p.hd.w := hL.x.trans A.x
    have e2 : ly = p.hd.h := hL.y.trans A.y
    have e3 : ln = _ := e3
    have e4 : ld = _ := e4
    rw [e1, e2, e3, e4]

end FlatCV
