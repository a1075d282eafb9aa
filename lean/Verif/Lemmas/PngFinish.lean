/-
The PNG decoder: from the decompressed data and the state after all chunks to the image with four channels of 8 bits.
-/
import Verif.Lemmas.PngColour

namespace FlatCV
open Model Png

/-- All allocations succeed. -/
structure MemGood (m : PngMem) : Prop where
  idata : ∀ k, m.idata k = true
  zlib : m.zlib = true
  grows : ∀ k, m.grows k = true
  out : ∀ k, m.out k = true
  filter : ∀ k, m.filter k = true
  final : m.final = true
  palette : m.palette = true
  convert : m.convert = true
  reduce : m.reduce = true

/-- What is known about the state after IHDR. -/
structure HdrOk (t : PState) : Prop where
  depth : t.depth ∈ [1, 2, 4, 8, 16]
  kind : (t.color = 0 ∧ t.n = 1) ∨ (t.color = 2 ∧ t.n = 3) ∨ (t.color = 3 ∧ t.n = 1) ∨ (t.color = 4 ∧ t.n = 2) ∨ (t.color = 6 ∧ t.n = 4)
  x0 : 0 < t.x
  y0 : 0 < t.y
  x1 : t.x ≤ 16777216
  y1 : t.y ≤ 16777216
  area : t.x * t.y * t.n ≤ 1073741824
  pal3 : t.color = 3 → (t.palN = 3 ∨ t.palN = 4) ∧ t.depth ≠ 16 ∧ t.trans = false
  pal0 : t.color ≠ 3 → t.palN = 0
  palSize : t.pal.length = 1024
  palInit : ∀ q, q < t.palLen * 4 → ∃ b, t.pal[q]? = some (some b)
  palMax : t.palLen ≤ 256
  trans : t.trans = true → t.color = 0 ∨ t.color = 2
  tc : ∀ c, c < 3 → ∃ v, t.tc[c]? = some (some v)
  tc16 : t.trans = true → t.depth = 16 → ∀ c, c < t.n → ∃ v, t.tc16[c]? = some (some v)
  tc16Size : t.tc16.length = 3

/-- The transparent colour. -/
def key (t : PState) (c : Nat) : Nat := ((if t.depth = 16 then t.tc16 else t.tc).getD c none).getD 0

/-- Channels of the image in memory before the palette is applied. -/
def outChannels (t : PState) : Nat := if (4 = t.n + 1 ∧ t.palN = 0) ∨ t.trans = true then t.n + 1 else t.n

/-- A sample in memory. -/
def alphaPix (t : PState) (S : Samples) (x y c : Nat) : Nat :=
  if c < t.n then storedV t.depth t.color (S x y c)
  else if t.trans = true ∧ ∀ c, c < t.n → storedV t.depth t.color (S x y c) = key t c then 0 else opaque' t.depth

/-- A sample in memory after the palette was applied. -/
def finalPix (t : PState) (S : Samples) (x y c : Nat) : Nat :=
  if t.color = 3 then palByte t.pal (storedV t.depth t.color (S x y 0) * 4 + c) else alphaPix t S x y c

theorem sampleAt_lt {depth : Nat} (row : List UInt8) (i : Nat) : sampleAt depth row i < 2 ^ depth := by
  rw [sampleAt]
  split_ifs with h
  · subst h
    have h1 := (row.getD (2 * i) 0).toNat_lt
    have h2 := (row.getD (2 * i + 1) 0).toNat_lt
    rw [show 2 ^ 16 = 65536 from rfl]
    omega
  · exact Nat.mod_lt _ (Nat.two_pow_pos _)

theorem lpass_lt {depth n w h : Nat} {l rest : List UInt8} {S : Samples} (e : lpass depth n w h l = some (S, rest)) (x y c : Nat) : S x y c < 2 ^ depth := by
  rw [lpass, Option.map_eq_some_iff] at e
  obtain ⟨⟨rows, rest'⟩, h1, h2⟩ := e
  obtain ⟨rfl, _⟩ := Prod.mk.inj h2
  exact sampleAt_lt _ _

theorem lpasses_lt {depth n w h : Nat} {g : List (Nat × Nat × Nat × Nat)} {l rest : List UInt8} {Ss : List Samples} (e : lpasses depth n w h g l = some (Ss, rest)) (k x y c : Nat) :
    Ss.getD k (fun _ _ _ => 0) x y c < 2 ^ depth := by
  induction g generalizing l Ss rest k with
  | nil =>
    rw [lpasses] at e
    obtain ⟨rfl, _⟩ := Prod.mk.inj (Option.some.inj e)
    exact Nat.two_pow_pos _
  | cons a g ih =>
    obtain ⟨xo, yo, xs, ys⟩ := a
    rw [lpasses, Option.bind_eq_some_iff] at e
    obtain ⟨⟨S, r⟩, h1, h2⟩ := e
    rw [Option.map_eq_some_iff] at h2
    obtain ⟨⟨Ss', r'⟩, h3, h4⟩ := h2
    obtain ⟨rfl, _⟩ := Prod.mk.inj h4
    cases k with
    | zero =>
      rw [List.getD_cons_zero]
      split_ifs at h1
      · obtain ⟨rfl, _⟩ := Prod.mk.inj (Option.some.inj h1)
        exact Nat.two_pow_pos _
      · exact lpass_lt h1 x y c
    | succ k =>
      rw [List.getD_cons_succ]
      exact ih h3 k

theorem lread_lt {depth n w h interlace : Nat} {l : List UInt8} {S : Samples} (e : lread depth n w h interlace l = some S) (x y c : Nat) : S x y c < 2 ^ depth := by
  rw [lread] at e
  split_ifs at e
  · rw [Option.map_eq_some_iff] at e
    obtain ⟨⟨S', r⟩, h1, rfl⟩ := e
    exact lpass_lt h1 x y c
  · rw [Option.map_eq_some_iff] at e
    obtain ⟨⟨Ss, r⟩, h1, rfl⟩ := e
    exact lpasses_lt h1 _ _ _ _

theorem stored_palette {depth v : Nat} (hd : depth ∈ [1, 2, 4, 8, 16]) (h16 : depth ≠ 16) (hv : v < 2 ^ depth) : storedV depth 3 v = v ∧ v < 256 := by
  rcases depth_cases hd with rfl | rfl | rfl | rfl | rfl
  all_goals first | exact absurd rfl h16 | skip
  all_goals norm_num at hv
  all_goals
    rw [storedV]
    norm_num
    omega

theorem holds_of_grid {t : Cells Nat} {w h m : Nat} {g : Nat → Nat → Nat → Nat} (hw : 0 < w) (hl : t.length = w * h * m)
    (ht : ∀ i, i < w → ∀ j, j < h → ∀ c, c < m → t[(j * w + i) * m + c]? = some (some (g i j c))) : HoldsPix t (w * h) m fun p => g (p % w) (p / w) := by
  refine ⟨hl, fun p hp c hc => ?_⟩
  have := ht (p % w) (Nat.mod_lt _ hw) (p / w) (Nat.div_lt_of_lt_mul hp) c hc
  rwa [Nat.mul_comm (p / w), Nat.div_add_mod] at this

theorem HoldsPix.congr {t : Cells Nat} {k m : Nat} {g g' : Nat → Nat → Nat} (h : HoldsPix t k m g) (e : ∀ p, p < k → ∀ c, c < m → g p c = g' p c) : HoldsPix t k m g' :=
  ⟨h.1, fun p hp c hc => by rw [h.2 p hp c hc, e p hp c hc]⟩

/-- Sizes for which every block can be had. -/
def SizeFits (t : PState) : Prop := RawFits t.n (outChannels t) t.x t.y t.depth ∧ (t.color = 3 → t.x * t.y * 4 ≤ 2147483647)

/-- The image in memory. -/
structure Shown (t : PState) (S : Samples) (d : Decoded) : Prop where
  x : d.x = t.x
  y : d.y = t.y
  n : d.n = if t.color = 3 then t.palN else if t.trans then t.n + 1 else t.n
  depth : d.depth = t.depth
  outN : d.outN = if t.color = 3 then 4 else outChannels t
  size : t.x * t.y * outChannels t * sampleBytes t.depth ≤ 2147483647
  out : HoldsPix d.out (t.x * t.y) d.outN fun p => finalPix t S (p % t.x) (p / t.x)

theorem keyPix_eq {t : PState} {c v : Nat} (h : (if t.depth = 16 then t.tc16 else t.tc)[c]? = some (some v)) : key t c = v := by
  rw [key, List.getD_eq_getElem?_getD, h]
  rfl

theorem opaque_eq (t : PState) : opaque' t.depth = if t.depth = 16 then 65535 else 255 := rfl

theorem pixV_lt (t : PState) (S : Samples) (x y : Nat) {c : Nat} (h : c < t.n) : pixV t.depth t.color t.n S x y c = storedV t.depth t.color (S x y c) := by
  rw [pixV, if_pos h]

theorem apply_ok {t : PState} {S : Samples} {out : Cells Nat} (H : HdrOk t)
    (ho : HoldsPix out (t.x * t.y) (outChannels t) fun p => pixV t.depth t.color t.n S (p % t.x) (p / t.x)) :
    Ok (applyTrans t (outChannels t) out) fun s => HoldsPix s (t.x * t.y) (outChannels t) fun p => alphaPix t S (p % t.x) (p / t.x) := by
  rw [applyTrans]
  have hn0 : 0 < t.n := by have := H.kind; omega
  have hu : u32 (t.x * t.y) = t.x * t.y := by
    have := H.area
    have := Nat.le_mul_of_pos_right (t.x * t.y) hn0
    exact u32_eq (by omega)
  cases htr : t.trans with
  | false =>
    rw [if_neg (by simp)]
    refine Ok.pure' (ho.congr fun p hp c hc => ?_)
    rw [pixV, alphaPix, htr]
    simp
  | true =>
    rw [if_pos rfl, hu]
    have hc : compute_transparency (t.x * t.y) (outChannels t) (opaque' t.depth) (if t.depth = 16 then t.tc16 else t.tc) out =
        (if t.depth = 16 then compute_transparency (t.x * t.y) (outChannels t) 65535 t.tc16 out
          else compute_transparency (t.x * t.y) (outChannels t) 255 t.tc out) := by
      rw [opaque_eq]
      split_ifs <;> rfl
    rw [← hc]
    have hk : ∀ c, c < t.n → (if t.depth = 16 then t.tc16 else t.tc)[c]? = some (some (key t c)) := by
      intro c hc
      have hn3 : t.n ≤ 3 := by have := H.kind; have := H.trans htr; omega
      have : ∃ v, (if t.depth = 16 then t.tc16 else t.tc)[c]? = some (some v) := by
        split_ifs with h16
        · exact H.tc16 htr h16 c hc
        · exact H.tc c (by omega)
      obtain ⟨v, hv⟩ := this
      rw [hv, keyPix_eq hv]
    rcases H.trans htr with hcol | hcol
    · have hn : t.n = 1 := by have := H.kind; omega
      have ho2 : outChannels t = 2 := by rw [outChannels, if_pos (Or.inr htr), hn]
      rw [ho2] at ho ⊢
      refine (transparency_grey ho (hk 0 (by omega))).mono fun s hs => hs.congr fun p hp c hc => ?_
      rw [alphaPix, htr, hn]
      have e0 := pixV_lt t S (p % t.x) (p / t.x) (show 0 < t.n by omega)
      by_cases h1 : c < 1
      · rw [if_pos h1, if_pos h1, ← hn, pixV_lt t S _ _ (by omega)]
      · rw [if_neg h1, if_neg h1, ← hn, e0, hn]
        refine if_congr ?_ rfl rfl
        constructor
        · intro e
          refine ⟨rfl, fun c hc => ?_⟩
          obtain rfl : c = 0 := by omega
          exact e
        · rintro ⟨_, e⟩
          exact e 0 (by omega)
    · have hn : t.n = 3 := by have := H.kind; omega
      have ho4 : outChannels t = 4 := by rw [outChannels, if_pos (Or.inr htr), hn]
      rw [ho4] at ho ⊢
      refine (transparency_colour ho (k := key t) (fun c hc => hk c (by omega))).mono fun s hs => hs.congr fun p hp c hc => ?_
      rw [alphaPix, htr]
      by_cases h3 : c < 3
      · rw [if_pos h3, if_pos (by omega), pixV_lt t S _ _ (by omega)]
      · have e3 : pixV t.depth t.color t.n S (p % t.x) (p / t.x) 3 = opaque' t.depth := by rw [pixV, if_neg (by omega)]
        rw [if_neg h3, if_neg (show ¬ c < t.n by omega), e3]
        refine if_congr ?_ rfl rfl
        rw [pixV_lt t S _ _ (show 0 < t.n by omega), pixV_lt t S _ _ (show 1 < t.n by omega), pixV_lt t S _ _ (show 2 < t.n by omega)]
        constructor
        · rintro ⟨e0, e1, e2⟩
          refine ⟨rfl, fun c hc => ?_⟩
          have : c = 0 ∨ c = 1 ∨ c = 2 := by omega
          rcases this with rfl | rfl | rfl
          · exact e0
          · exact e1
          · exact e2
        · rintro ⟨_, e⟩
          exact ⟨e 0 (by omega), e 1 (by omega), e 2 (by omega)⟩

theorem finish_ok {m : PngMem} {raw : Cells UInt8} {l : List UInt8} {t : PState} (H : HdrOk t) (hraw : ∀ k, k < l.length → raw[k]? = some (some (l.getD k 0))) :
    Outc (fun e => e = .uninitRead ∧ t.color = 3 ∧ ∃ S, lread t.depth t.n t.x t.y t.interlace l = some S ∧ ∃ i j, i < t.x ∧ j < t.y ∧ t.palLen ≤ S i j 0)
      (finishImage m raw l.length t) fun r =>
      (∀ d, r = some d → ∃ S, lread t.depth t.n t.x t.y t.interlace l = some S ∧ Shown t S d) ∧
      (r = none → MemGood m → SizeFits t → lread t.depth t.n t.x t.y t.interlace l = none) := by
  have hn0 : 0 < t.n := by have := H.kind; omega
  have hch : outChannels t = t.n ∨ (outChannels t = t.n + 1 ∧ (t.n = 1 ∨ t.n = 3)) := by
    have h1 := H.kind
    have h2 := H.trans
    rw [outChannels]
    split_ifs with h
    · refine Or.inr ⟨rfl, ?_⟩
      rcases h with h | h
      · omega
      · have := h2 h
        omega
    · exact Or.inl rfl
  rw [finishImage]
  have hoc : (if (4 = t.n + 1 ∧ t.palN = 0) ∨ t.trans = true then t.n + 1 else t.n) = outChannels t := rfl
  simp only [hoc]
  refine Outc.bind (Outc.of_ok (create_image_ok (m := m) (color := t.color) (interlace := t.interlace) H.depth hn0 H.x0 H.y0 H.x1 H.y1 hch hraw)) ?_
  rintro r ⟨h1, h2⟩
  cases r with
  | none => exact Outc.pure ⟨fun d hd => (by cases hd), fun _ M F => h2 rfl M.final M.out M.filter F.1⟩
  | some out =>
    obtain ⟨S, g1, g2, g3, g4⟩ := h1 out rfl
    have ho := holds_of_grid H.x0 g2 g4
    simp only
    refine Outc.bind (Outc.of_ok (apply_ok H ho)) ?_
    intro s hs
    by_cases hc3 : t.color = 3
    · obtain ⟨p1, p2, p3⟩ := H.pal3 hc3
      have hn : t.n = 1 := by have := H.kind; omega
      have ho1 : outChannels t = 1 := by
        rw [outChannels, if_neg, hn]
        rintro (h | h)
        · omega
        · rw [p3] at h
          cases h
      rw [if_pos (show t.palN ≠ 0 by omega)]
      have hu : u32 (t.x * t.y) = t.x * t.y := by
        have := H.area
        rw [hn, Nat.mul_one] at this
        exact u32_eq (by omega)
      rw [hu]
      rw [ho1] at hs
      have hst : ∀ p, storedV t.depth t.color (S (p % t.x) (p / t.x) 0) = S (p % t.x) (p / t.x) 0 ∧ S (p % t.x) (p / t.x) 0 < 256 := fun p => by
        rw [hc3]
        exact stored_palette H.depth p2 (lread_lt g1 _ _ _)
      refine Outc.bind ((palette_ok (m := m) (count := t.x * t.y) (n := t.palLen) (pal := t.pal) (t := s) (v := fun p => S (p % t.x) (p / t.x) 0) H.palSize ?_ (fun p _ => (hst p).2) H.palInit).monoE ?_) ?_
      · intro p hp
        have := hs.2 p hp 0 (by omega)
        beta_reduce at this
        rw [Nat.mul_one, Nat.add_zero, alphaPix, if_pos hn0, (hst p).1] at this
        exact this
      · rintro e ⟨rfl, p, hp, hlt⟩
        exact ⟨rfl, hc3, S, g1, p % t.x, p / t.x, Nat.mod_lt _ H.x0, Nat.div_lt_of_lt_mul hp, hlt⟩
      · rintro r ⟨q1, q2⟩
        cases r with
        | none => exact Outc.pure ⟨fun d hd => (by cases hd), fun _ M F => (q2 rfl M.palette (F.2 hc3)).elim⟩
        | some u =>
          refine Outc.pure ⟨fun d hd => ?_, fun e => (by cases e)⟩
          cases hd
          refine ⟨S, g1, rfl, rfl, by rw [if_pos hc3], rfl, by rw [if_pos hc3], g3, (q1 u rfl).congr fun p hp c hc => ?_⟩
          beta_reduce
          rw [finalPix, if_pos hc3, (hst p).1]
    · rw [if_neg (show ¬ t.palN ≠ 0 by have := H.pal0 hc3; omega)]
      refine Outc.pure ⟨fun d hd => ?_, fun e => (by cases e)⟩
      cases hd
      refine ⟨S, g1, rfl, rfl, by rw [if_neg hc3], rfl, by rw [if_neg hc3], g3, hs.congr fun p hp c hc => ?_⟩
      rw [finalPix, if_neg hc3]

/-! ### Conversion -/

/-- A byte of the result. -/
def loadedByte (t : PState) (S : Samples) (x y c : Nat) : UInt8 :=
  let q := four (if t.color = 3 then 4 else outChannels t) (opaque' t.depth) (finalPix t S x y) c
  UInt8.ofNat (if t.depth = 16 then q / 256 % 256 else q)

/-- The image as it is returned. -/
structure LoadedAs (t : PState) (S : Samples) (L : Loaded) : Prop where
  x : L.x = t.x
  y : L.y = t.y
  n : L.n = if t.color = 3 then t.palN else if t.trans then t.n + 1 else t.n
  len : L.data.length = t.x * t.y * 4
  data : ∀ p, p < t.x * t.y → ∀ c, c < 4 → L.data[p * 4 + c]? = some (some (loadedByte t S (p % t.x) (p / t.x) c))

/-- stb_image.h:5271-5301: what follows the chunks. -/
def convertAll (m : PngMem) (d : Decoded) : CM (Option Loaded) :=
  if d.depth ≤ 8 then do
    match ← convert_format m d with
    | none => pure none
    | some t => pure (some ⟨d.x, d.y, d.n, asBytes t⟩)
  else do
    match ← convert_format16 m d with
    | none => pure none
    | some t => do
      match ← convert_16_to_8 m d.x d.y t with
      | none => pure none
      | some t => pure (some ⟨d.x, d.y, d.n, asBytes t⟩)

theorem asBytes_get {t : Cells Nat} {q v : Nat} (h : t[q]? = some (some v)) : (asBytes t)[q]? = some (some (UInt8.ofNat v)) := by
  rw [asBytes, List.getElem?_map, h]
  rfl

theorem four_four {full : Nat} {g : Nat → Nat} {c : Nat} : four 4 full g c = g c := by rw [four, if_pos rfl]

/-- A block that is too small. -/
theorem toFour_small {count full : Nat} {src t : Cells Nat} {g : Nat → Nat → Nat} (hs : HoldsPix src count 1 g) (ht : t.length < count * 4) :
    toFour count 1 full src t = .error .oobWrite := by
  have key : Outc (fun e => e = .oobWrite) (toFour count 1 full src t) fun s => s.length = t.length ∧ count * 4 ≤ t.length := by
    rw [toFour]
    refine Outc.forN (I := fun i (s : Cells Nat) => s.length = t.length ∧ i * 4 ≤ t.length) ⟨rfl, by omega⟩ ?_
    intro i hi s hst
    have e0 : src[i * 1]? = some (some (g i 0)) := by have := hs.2 i hi 0 (by omega); rwa [Nat.add_zero] at this
    have w : ∀ (s : Cells Nat) q v, Outc (fun e => e = .oobWrite) (wr s q v) fun s' => s'.length = s.length ∧ q < s.length := by
      intro s q v
      by_cases h : q < s.length
      · rw [wr_ok h]
        exact Outc.pure ⟨by rw [List.length_set], h⟩
      · rw [wr, if_neg h]
        rfl
    have r12 : ∀ k (_ : ¬ 1 = k) q v, (rdIf (1 = k) src q v) = .ok v := fun k hk q v => by rw [rdIf, if_neg hk]; rfl
    rw [rd_ok e0, ok_bind, r12 3 (by omega), ok_bind, r12 3 (by omega), ok_bind, r12 2 (by omega), ok_bind]
    refine Outc.bind (w _ _ _) fun s1 h1 => ?_
    refine Outc.bind (w _ _ _) fun s2 h2 => ?_
    refine Outc.bind (w _ _ _) fun s3 h3 => ?_
    refine (w _ _ _).mono fun s4 h4 => ?_
    have e : s4.length = t.length := by rw [h4.1, h3.1, h2.1, h1.1, hst.1]
    have := h4.2
    exact ⟨e, by omega⟩
  revert key
  cases toFour count 1 full src t with
  | ok s => exact fun h => absurd h.2 (by omega)
  | error e => exact fun h => congrArg _ h

theorem convert_ok {m : PngMem} {t : PState} {S : Samples} {d : Decoded} (H : HdrOk t) (D : Shown t S d) :
    Outc (fun e => e = .oobWrite ∧ t.color = 0 ∧ t.depth = 16 ∧ t.trans = false ∧ 536870912 ≤ t.x * t.y) (convertAll m d) fun r =>
      (∀ L, r = some L → LoadedAs t S L) ∧ (r = none → MemGood m → t.x * t.y * 4 ≤ 2147483647 → False) := by
  have hB : t.depth = 16 ∨ (t.depth ≠ 16 ∧ t.depth ≤ 8) := by
    rcases depth_cases H.depth with h | h | h | h | h <;> omega
  have hk := H.kind
  have hoN : d.outN = 4 ∨ d.outN = 1 ∨ d.outN = 2 := by
    have h0 := D.outN
    rw [outChannels] at h0
    have h2 := H.trans
    split_ifs at h0 with h3 h
    · exact Or.inl h0
    · rcases h with h | h
      · omega
      · have := h2 h
        omega
    · have := H.pal0 h3
      omega
  have hfull : four (if t.color = 3 then 4 else outChannels t) = four d.outN := by rw [D.outN]
  have fin : ∀ {s : Cells Nat}, HoldsPix s (t.x * t.y) 4 (fun p c => if t.depth = 16 then four d.outN (opaque' t.depth) (finalPix t S (p % t.x) (p / t.x)) c / 256 % 256
      else four d.outN (opaque' t.depth) (finalPix t S (p % t.x) (p / t.x)) c) → LoadedAs t S ⟨d.x, d.y, d.n, asBytes s⟩ := by
    intro s hs
    refine ⟨D.x, D.y, D.n, by rw [asBytes, List.length_map]; exact hs.1, fun p hp c hc => ?_⟩
    show (asBytes s)[p * 4 + c]? = _
    rw [asBytes_get (hs.2 p hp c hc), loadedByte]
    simp only [hfull]
  rw [convertAll, D.depth]
  rcases hB with h16 | ⟨h16, h8⟩
  · rw [if_neg (by omega), convert_format16]
    have tail : ∀ {s : Cells Nat}, HoldsPix s (t.x * t.y) 4 (fun p c => four d.outN (opaque' t.depth) (finalPix t S (p % t.x) (p / t.x)) c) → t.x * t.y * 4 ≤ 2147483647 →
        Ok (do
          match ← convert_16_to_8 m d.x d.y s with
          | none => pure none
          | some t => pure (some ⟨d.x, d.y, d.n, asBytes t⟩) : CM (Option Loaded)) fun r =>
          (∀ L, r = some L → LoadedAs t S L) ∧ (r = none → MemGood m → t.x * t.y * 4 ≤ 2147483647 → False) := by
      intro s hs hsz
      have hs' : HoldsPix s (d.x * d.y) 4 (fun p c => four d.outN (opaque' t.depth) (finalPix t S (p % t.x) (p / t.x)) c) := by rw [D.x, D.y]; exact hs
      refine Ok.bind (reduce_ok (m := m) hs' (by rw [D.x, D.y]; exact hsz)) ?_
      rintro r ⟨h1, h2⟩
      cases r with
      | none => exact Ok.pure' ⟨fun L hL => (by cases hL), fun _ M _ => h2 rfl M.reduce⟩
      | some u =>
        refine Ok.pure' ⟨fun L hL => ?_, fun e => (by cases e)⟩
        cases hL
        refine fin ?_
        have := h1 u rfl
        rw [D.x, D.y] at this
        exact this.congr fun p hp c hc => by rw [if_pos h16]
    have hsz := D.size
    rw [sampleBytes, if_pos h16] at hsz
    by_cases h4 : d.outN = 4
    · rw [if_pos h4, pure_bind']
      have ho := D.out
      have h4' : t.x * t.y * 4 ≤ 2147483647 := by
        have h3 : t.color ≠ 3 := fun h => (H.pal3 h).2.1 h16
        have h5 := D.outN
        rw [if_neg h3] at h5
        rw [← h5, h4] at hsz
        omega
      refine Outc.of_ok (tail ?_ h4')
      rw [h4] at ho ⊢
      exact ho.congr fun p hp c hc => by rw [four_four]
    · rw [if_neg h4]
      have h3 : t.color ≠ 3 := fun h => (H.pal3 h).2.1 h16
      have h5 := D.outN
      rw [if_neg h3] at h5
      cases hm : m.convert with
      | false =>
        refine Outc.pure ⟨fun L hL => (by cases hL), fun _ M _ => ?_⟩
        rw [M.convert] at hm
        cases hm
      | true =>
        simp only [Bool.not_true, Bool.false_eq_true, if_false]
        have ho := D.out
        have hfu : (65535 : Nat) = opaque' t.depth := by rw [opaque', if_pos h16]
        by_cases hbig : t.x * t.y < 536870912
        · have hlen : u32 (4 * d.x * d.y * 2) / 2 = t.x * t.y * 4 := by
            have e : 4 * d.x * d.y * 2 = t.x * t.y * 4 * 2 := by rw [D.x, D.y]; ring
            rw [e, u32_eq (by omega), Nat.mul_div_cancel _ (by omega)]
          rw [bind_assoc]
          refine Outc.of_ok (Ok.bind (toFour_ok (g := fun p => finalPix t S (p % t.x) (p / t.x)) (by omega) (by rw [D.x, D.y]; exact ho)
            (by rw [List.length_replicate, hlen, D.x, D.y])) ?_)
          intro s hs
          rw [D.x, D.y, hfu] at hs
          exact tail hs (by omega)
        · have h1 : d.outN = 1 := by
            rcases hoN with h | h | h
            · exact absurd h h4
            · exact h
            · rw [← h5, h] at hsz
              omega
          rw [bind_assoc]
          have hcol : t.color = 0 ∧ t.trans = false := by
            rw [outChannels] at h5
            have h2 := H.trans
            cases htr : t.trans with
            | true =>
              rw [if_pos (Or.inr htr)] at h5
              omega
            | false =>
              refine ⟨?_, rfl⟩
              split_ifs at h5 <;> omega
          rw [h1] at ho ⊢
          rw [toFour_small (g := fun p => finalPix t S (p % t.x) (p / t.x)) (by rw [D.x, D.y]; exact ho)
            (by
              have e : 4 * d.x * d.y * 2 = t.x * t.y * 4 * 2 := by rw [D.x, D.y]; ring
              have hlt : u32 (4 * d.x * d.y * 2) < 4294967296 := Nat.mod_lt _ (by norm_num)
              rw [List.length_replicate, D.x, D.y]
              rw [D.x, D.y] at hlt
              omega)]
          exact ⟨rfl, hcol.1, h16, hcol.2, by omega⟩
  · rw [if_pos h8, convert_format]
    have hfu : (255 : Nat) = opaque' t.depth := by rw [opaque', if_neg h16]
    by_cases h4 : d.outN = 4
    · rw [if_pos h4, pure_bind']
      refine Outc.pure ⟨fun L hL => ?_, fun e => (by cases e)⟩
      cases hL
      refine fin ?_
      have ho := D.out
      rw [h4] at ho ⊢
      exact ho.congr fun p hp c hc => by rw [if_neg h16, four_four]
    · rw [if_neg h4]
      by_cases c1 : (!(mad3ok 4 d.x d.y 0 && m.convert)) = true
      · rw [if_pos c1]
        refine Outc.pure ⟨fun L hL => (by cases hL), fun _ M F => ?_⟩
        have hy := H.y0
        rw [mad3ok_of (by rw [D.y]; exact hy) (by rw [D.x, D.y, show 4 * t.x * t.y = t.x * t.y * 4 by ring]; omega), M.convert] at c1
        cases c1
      · rw [if_neg c1, bind_assoc]
        refine Outc.of_ok (Ok.bind (toFour_ok (g := fun p => finalPix t S (p % t.x) (p / t.x)) (by omega) (by rw [D.x, D.y]; exact D.out)
          (by rw [List.length_replicate]; ring)) ?_)
        intro s hs
        rw [D.x, D.y, hfu] at hs
        rw [pure_bind']
        refine Ok.pure' ⟨fun L hL => ?_, fun e => (by cases e)⟩
        cases hL
        exact fin (hs.congr fun p hp c hc => by rw [if_neg h16])

end FlatCV
