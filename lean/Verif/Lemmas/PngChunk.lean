/-
The PNG decoder: each kind of chunk.
-/
import Verif.Lemmas.PngCtx
import Verif.Lemmas.InflateZlib
import Verif.Lemmas.Trim

namespace FlatCV
open Model Png

/-! ### IHDR -/

def ihdrX (b : List UInt8) : Nat := num32 b
def ihdrY (b : List UInt8) : Nat := num32 (b.drop 4)
def ihdrDepth (b : List UInt8) : Nat := (b.getD 8 0).toNat
def ihdrColour (b : List UInt8) : Nat := (b.getD 9 0).toNat
def ihdrInterlace (b : List UInt8) : Nat := (b.getD 12 0).toNat

/-- Channels of a colour type. -/
def ihdrN (c : Nat) : Nat := if c = 3 then 1 else (if c / 2 % 2 = 1 then 3 else 1) + (if c / 4 % 2 = 1 then 1 else 0)

/-- The decoder accepts the header. -/
def IhdrGood (b : List UInt8) : Prop :=
  ihdrX b ≤ 16777216 ∧ ihdrY b ≤ 16777216 ∧ ihdrDepth b ∈ [1, 2, 4, 8, 16] ∧
    (ihdrColour b = 0 ∨ ihdrColour b = 2 ∨ ihdrColour b = 3 ∨ ihdrColour b = 4 ∨ ihdrColour b = 6) ∧ (ihdrColour b = 3 → ihdrDepth b ≠ 16) ∧ b.getD 10 0 = 0 ∧ b.getD 11 0 = 0 ∧
    ihdrInterlace b ≤ 1 ∧ 0 < ihdrX b ∧ 0 < ihdrY b ∧ ihdrY b ≤ 1073741824 / ihdrX b / (if ihdrColour b = 3 then 4 else ihdrN (ihdrColour b))

/-- The state after IHDR. -/
def ihdrState (t : PState) (b : List UInt8) (s : Ctx) : PState :=
  { t with s := s, x := ihdrX b, y := ihdrY b, n := ihdrN (ihdrColour b), depth := ihdrDepth b, color := ihdrColour b, interlace := ihdrInterlace b, first := false,
           palN := if ihdrColour b = 3 then 3 else t.palN }

theorem drop_getD (l : List UInt8) (a k : Nat) : (l.drop a).getD k 0 = l.getD (a + k) 0 := by
  rw [List.getD_eq_getElem?_getD, List.getD_eq_getElem?_getD, List.getElem?_drop]

theorem ihdr_ok {t : PState} {len : Nat} (h : CtxOk t.s) :
    (∀ t', chunkIHDR len t = some t' → t.first = true ∧ len = 13 ∧ IhdrGood (Ctx.rem t.s) ∧ ∃ s, Next t.s s ((Ctx.rem t.s).drop 13) ∧ t' = ihdrState t (Ctx.rem t.s) s) ∧
    (t.first = true → len = 13 → IhdrGood (Ctx.rem t.s) → chunkIHDR len t ≠ none) := by
  rw [chunkIHDR]
  cases hf : t.first with
  | false =>
    simp only [Bool.not_false, if_true]
    exact ⟨fun t' e => (by cases e), fun e => (by cases e)⟩
  | true =>
    simp only [Bool.not_true, Bool.false_eq_true, if_false]
    by_cases hl : len = 13
    swap
    · rw [if_pos hl]
      exact ⟨fun t' e => (by cases e), fun _ e => absurd e hl⟩
    rw [if_neg (by simpa using hl)]
    obtain ⟨x1, x2⟩ := get32_next h
    obtain ⟨y1, y2⟩ := get32_next x2.ok
    obtain ⟨d1, d2⟩ := get8_next y2.ok
    obtain ⟨c1, c2⟩ := get8_next d2.ok
    obtain ⟨p1, p2⟩ := get8_next c2.ok
    obtain ⟨f1, f2⟩ := get8_next p2.ok
    obtain ⟨i1, i2⟩ := get8_next f2.ok
    have e4 : ∀ (l : List UInt8) k, (l.drop k).tail = l.drop (k + 1) := fun l k => by rw [← List.drop_one, List.drop_drop]
    rw [x2.rem] at y1 y2
    rw [y2.rem, List.drop_drop] at d1 d2
    rw [e4] at d2
    rw [d2.rem] at c1 c2
    rw [e4] at c2
    rw [c2.rem] at p1 p2
    rw [e4] at p2
    rw [p2.rem] at f1 f2
    rw [e4] at f2
    rw [f2.rem] at i1 i2
    rw [e4] at i2
    generalize get32be t.s = X at *
    generalize get32be X.2 = Y at *
    generalize get8 Y.2 = D at *
    generalize get8 D.2 = C at *
    generalize get8 C.2 = P at *
    generalize get8 P.2 = F at *
    generalize get8 F.2 = I at *
    have hN : Next t.s I.2 ((Ctx.rem t.s).drop 13) := (((((x2.trans y2).trans d2).trans c2).trans p2).trans f2).trans i2
    generalize hb : Ctx.rem t.s = b at *
    rw [headD_eq, drop_getD] at d1 c1 p1 f1 i1
    have hx : X.1 = ihdrX b := x1
    have hy : Y.1 = ihdrY b := y1
    have hd : D.1.toNat = ihdrDepth b := congrArg _ d1
    have hc : C.1.toNat = ihdrColour b := congrArg _ c1
    have hp : P.1 = b.getD 10 0 := p1
    have hfl : F.1 = b.getD 11 0 := f1
    have hi : I.1.toNat = ihdrInterlace b := congrArg _ i1
    rw [hx, hy, hd, hc, hp, hfl, hi]
    rw [IhdrGood]
    by_cases q1 : 16777216 < ihdrY b ∨ 16777216 < ihdrX b
    · rw [if_pos q1]
      exact ⟨fun t' e => (by cases e), fun _ _ g => absurd g (by omega)⟩
    rw [if_neg q1]
    by_cases q2 : ihdrDepth b ∉ [1, 2, 4, 8, 16]
    · rw [if_pos q2]
      exact ⟨fun t' e => (by cases e), fun _ _ g => absurd g.2.2.1 q2⟩
    rw [if_neg q2]
    rw [not_not] at q2
    by_cases q3 : 6 < ihdrColour b
    · rw [if_pos q3]
      exact ⟨fun t' e => (by cases e), fun _ _ g => absurd g (by omega)⟩
    rw [if_neg q3]
    by_cases q4 : ihdrColour b = 3 ∧ ihdrDepth b = 16
    · rw [if_pos q4]
      exact ⟨fun t' e => (by cases e), fun _ _ g => absurd q4.2 (g.2.2.2.2.1 q4.1)⟩
    rw [if_neg q4]
    by_cases q5 : ihdrColour b ≠ 3 ∧ ihdrColour b % 2 = 1
    · rw [if_pos q5]
      exact ⟨fun t' e => (by cases e), fun _ _ g => absurd g.2.2.2.1 (by omega)⟩
    rw [if_neg q5]
    by_cases q6 : b.getD 10 0 ≠ 0 ∨ b.getD 11 0 ≠ 0 ∨ 1 < ihdrInterlace b
    · rw [if_pos q6]
      refine ⟨fun t' e => (by cases e), fun _ _ g => ?_⟩
      obtain ⟨_, _, _, _, _, g1, g2, g3, _⟩ := g
      rcases q6 with q | q | q
      · exact absurd g1 q
      · exact absurd g2 q
      · omega
    rw [if_neg q6]
    rw [not_or, not_or, not_not, not_not, Nat.not_lt] at q6
    by_cases q7 : ihdrX b = 0 ∨ ihdrY b = 0
    · rw [if_pos q7]
      refine ⟨fun t' e => (by cases e), fun _ _ g => ?_⟩
      obtain ⟨_, _, _, _, _, _, _, _, g1, g2, _⟩ := g
      omega
    rw [if_neg q7]
    by_cases q8 : ihdrColour b = 3
    · rw [if_pos q8]
      by_cases q9 : 1073741824 / ihdrX b / 4 < ihdrY b
      · rw [if_pos q9]
        refine ⟨fun t' e => (by cases e), fun _ _ g => ?_⟩
        obtain ⟨_, _, _, _, _, _, _, _, _, _, g⟩ := g
        rw [if_pos q8] at g
        exact absurd q9 (Nat.not_lt.2 g)
      · rw [if_neg q9]
        refine ⟨fun t' e => ?_, fun _ _ _ => by simp⟩
        have hg : ihdrY b ≤ 1073741824 / ihdrX b / (if ihdrColour b = 3 then 4 else ihdrN (ihdrColour b)) := by
          rw [if_pos q8]
          exact Nat.not_lt.1 q9
        refine ⟨trivial, hl, ⟨by omega, by omega, q2, by omega, fun e1 e2 => q4 ⟨e1, e2⟩, q6.1, q6.2.1, q6.2.2, by omega, by omega, hg⟩, I.2, hN, ?_⟩
        rw [← Option.some.inj e, ihdrState, q8]
        rfl
    · rw [if_neg q8]
      have hn : (if ihdrColour b / 2 % 2 = 1 then 3 else 1) + (if ihdrColour b / 4 % 2 = 1 then 1 else 0) = ihdrN (ihdrColour b) := by
        rw [ihdrN, if_neg q8]
      rw [hn]
      by_cases q9 : 1073741824 / ihdrX b / ihdrN (ihdrColour b) < ihdrY b
      · rw [if_pos q9]
        refine ⟨fun t' e => (by cases e), fun _ _ g => ?_⟩
        obtain ⟨_, _, _, _, _, _, _, _, _, _, g⟩ := g
        rw [if_neg q8] at g
        exact absurd q9 (Nat.not_lt.2 g)
      · rw [if_neg q9]
        refine ⟨fun t' e => ?_, fun _ _ _ => by simp⟩
        have hg : ihdrY b ≤ 1073741824 / ihdrX b / (if ihdrColour b = 3 then 4 else ihdrN (ihdrColour b)) := by
          rw [if_neg q8]
          exact Nat.not_lt.1 q9
        refine ⟨trivial, hl, ⟨by omega, by omega, q2, by omega, fun e1 e2 => q4 ⟨e1, e2⟩, q6.1, q6.2.1, q6.2.2, by omega, by omega, hg⟩, I.2, hN, ?_⟩
        rw [← Option.some.inj e, ihdrState, if_neg q8]

/-! ### PLTE -/

/-- The palette after PLTE with contents `b`. -/
structure PalSet (pal pal' : Cells UInt8) (b : List UInt8) (k : Nat) : Prop where
  len : pal'.length = pal.length
  set : ∀ i, i < k → (∀ c, c < 3 → pal'[i * 4 + c]? = some (some (b.getD (3 * i + c) 0))) ∧ pal'[i * 4 + 3]? = some (some 255)
  rest : ∀ q, k * 4 ≤ q → pal'[q]? = pal[q]?

theorem tail_drop (l : List UInt8) (k : Nat) : (l.drop k).tail = l.drop (k + 1) := by rw [← List.drop_one, List.drop_drop]

theorem plte_ok {t : PState} {len : Nat} (h : CtxOk t.s) (hp : t.pal.length = 1024) :
    Ok (chunkPLTE len t) fun r =>
      (∀ t', r = some t' → t.first = false ∧ len ≤ 768 ∧ len % 3 = 0 ∧ ∃ s pal, Next t.s s ((Ctx.rem t.s).drop len) ∧ PalSet t.pal pal (Ctx.rem t.s) (len / 3) ∧
        t' = { t with s := s, pal := pal, palLen := len / 3 }) ∧
      (t.first = false → len ≤ 768 → len % 3 = 0 → r ≠ none) := by
  rw [chunkPLTE]
  cases hf : t.first with
  | true =>
    rw [if_pos rfl]
    exact Ok.pure' ⟨fun t' e => (by cases e), fun e => (by cases e)⟩
  | false =>
    rw [if_neg (by simp)]
    by_cases h1 : 768 < len
    · rw [if_pos h1]
      exact Ok.pure' ⟨fun t' e => (by cases e), fun _ e => absurd e (by omega)⟩
    rw [if_neg h1]
    by_cases h2 : len / 3 * 3 ≠ len
    · rw [if_pos h2]
      exact Ok.pure' ⟨fun t' e => (by cases e), fun _ _ e => absurd e (by omega)⟩
    rw [if_neg h2]
    refine Ok.bind (forN_ok (I := fun i (r : Cells UInt8 × Ctx) => Next t.s r.2 ((Ctx.rem t.s).drop (3 * i)) ∧ PalSet t.pal r.1 (Ctx.rem t.s) i)
      ⟨⟨h, rfl, rfl⟩, rfl, fun i hi => absurd hi (by omega), fun _ _ => rfl⟩ ?_) ?_
    · rintro i hi ⟨pal, s⟩ ⟨hs, hP⟩
      simp only at hs hP ⊢
      obtain ⟨a1, a2⟩ := get8_next hs.ok
      obtain ⟨b1, b2⟩ := get8_next a2.ok
      obtain ⟨c1, c2⟩ := get8_next b2.ok
      rw [hs.rem] at a1 a2
      rw [tail_drop] at a2
      rw [a2.rem] at b1 b2
      rw [tail_drop] at b2
      rw [b2.rem] at c1 c2
      rw [tail_drop] at c2
      have hN := ((hs.trans a2).trans b2).trans c2
      rw [headD_eq, drop_getD] at a1 b1 c1
      rw [a1, b1, c1]
      have hl := hP.len
      rw [wr_ok (by omega), ok_bind, wr_ok (by rw [List.length_set]; omega), ok_bind, wr_ok (by rw [List.length_set, List.length_set]; omega), ok_bind,
        wr_ok (by rw [List.length_set, List.length_set, List.length_set]; omega), ok_bind]
      refine Ok.pure' ⟨by rwa [show 3 * i + 1 + 1 + 1 = 3 * (i + 1) by omega] at hN, by simp only [List.length_set]; exact hl, fun k hk => ?_, fun q hq => ?_⟩
      · simp only [List.getElem?_set, List.length_set]
        by_cases hki : k = i
        · subst hki
          constructor
          · intro c hc
            have : c = 0 ∨ c = 1 ∨ c = 2 := by omega
            rcases this with rfl | rfl | rfl
            · rw [if_neg (by omega), if_neg (by omega), if_neg (by omega), if_pos (by omega), if_pos (by omega)]
            · rw [if_neg (by omega), if_neg (by omega), if_pos (by omega), if_pos (by omega)]
            · rw [if_neg (by omega), if_pos (by omega), if_pos (by omega)]
          · rw [if_pos rfl, if_pos (by omega)]
        · obtain ⟨g1, g2⟩ := hP.set k (by omega)
          constructor
          · intro c hc
            rw [if_neg (by omega), if_neg (by omega), if_neg (by omega), if_neg (by omega)]
            exact g1 c hc
          · rw [if_neg (by omega), if_neg (by omega), if_neg (by omega), if_neg (by omega)]
            exact g2
      · simp only [List.getElem?_set]
        rw [if_neg (by omega), if_neg (by omega), if_neg (by omega), if_neg (by omega)]
        exact hP.rest q (by omega)
    · rintro ⟨pal, s⟩ ⟨hs, hP⟩
      refine Ok.pure' ⟨fun t' e => ⟨rfl, by omega, by omega, s, pal, ?_, hP, (Option.some.inj e).symm⟩, fun _ _ _ => by simp⟩
      rwa [show 3 * (len / 3) = len by omega] at hs

/-! ### tRNS -/

/-- The palette after tRNS with contents `b`. -/
structure AlphaSet (pal pal' : Cells UInt8) (b : List UInt8) (k : Nat) : Prop where
  len : pal'.length = pal.length
  set : ∀ i, i < k → pal'[i * 4 + 3]? = some (some (b.getD i 0))
  rest : ∀ q, (∀ i, i < k → q ≠ i * 4 + 3) → pal'[q]? = pal[q]?

/-- A transparent colour after tRNS: `v` gives the values. -/
structure ColourSet (tc tc' : Cells Nat) (v : Nat → Nat) (k : Nat) : Prop where
  len : tc'.length = tc.length
  set : ∀ i, i < k → tc'[i]? = some (some (v i))
  rest : ∀ q, k ≤ q → tc'[q]? = tc[q]?

/-- The loop over the channels. -/
theorem colour_loop {s : Ctx} {tc : Cells Nat} {k : Nat} {f : Nat → Nat} (h : CtxOk s) (hk : k ≤ tc.length) :
    Ok (forN k ((tc, s) : Cells Nat × Ctx) fun k r => do
      let (v, s) := get16be r.2
      let tc ← wr r.1 k (f v)
      pure (tc, s)) fun r => Next s r.2 ((Ctx.rem s).drop (2 * k)) ∧ ColourSet tc r.1 (fun i => f (num16 ((Ctx.rem s).drop (2 * i)))) k := by
  refine forN_ok (I := fun i (r : Cells Nat × Ctx) => Next s r.2 ((Ctx.rem s).drop (2 * i)) ∧ ColourSet tc r.1 (fun i => f (num16 ((Ctx.rem s).drop (2 * i)))) i)
      ⟨⟨h, rfl, rfl⟩, rfl, fun i hi => absurd hi (by omega), fun _ _ => rfl⟩ ?_
  rintro i hi ⟨tc', s'⟩ ⟨hs, hP⟩
  simp only at hs hP ⊢
  obtain ⟨a1, a2⟩ := get16_next hs.ok
  rw [hs.rem] at a1 a2
  rw [List.drop_drop] at a2
  have hl := hP.len
  rw [a1, wr_ok (by omega), ok_bind]
  refine Ok.pure' ⟨hs.trans (by rwa [show 2 * i + 2 = 2 * (i + 1) by omega] at a2), by rw [List.length_set]; exact hl, fun k hk => ?_, fun q hq => ?_⟩
  · rw [List.getElem?_set]
    by_cases hki : i = k
    · rw [if_pos hki, if_pos (by omega), hki]
    · rw [if_neg hki]
      exact hP.set k (by omega)
  · rw [List.getElem?_set, if_neg (by omega)]
    exact hP.rest q (by omega)

theorem trans_ok {t : PState} (h : CtxOk t.s) (hd : t.depth ∈ [1, 2, 4, 8, 16]) (hn : t.n = 1 ∨ t.n = 3) (h3 : t.tc.length = 3) (h16 : t.tc16.length = 3) :
    Ok (transColour t) fun t' => ∃ s tc tc16, Next t.s s ((Ctx.rem t.s).drop (2 * t.n)) ∧ t' = { t with s := s, tc := tc, tc16 := tc16, trans := true } ∧
      (t.depth = 16 → tc = t.tc ∧ ColourSet t.tc16 tc16 (fun i => num16 ((Ctx.rem t.s).drop (2 * i))) t.n) ∧
      (t.depth ≠ 16 → tc16 = t.tc16 ∧ ColourSet t.tc tc (fun i => num16 ((Ctx.rem t.s).drop (2 * i)) % 256 * depth_scale_table.getD t.depth 0 % 256) t.n) := by
  have hm : min t.n 3 = t.n := by omega
  rw [transColour, hm]
  by_cases hd16 : t.depth = 16
  · rw [if_pos hd16]
    refine Ok.bind (colour_loop (f := fun v => v) h (by omega)) ?_
    rintro ⟨tc16, s⟩ ⟨g1, g2⟩
    exact Ok.pure' ⟨s, t.tc, tc16, g1, rfl, fun _ => ⟨rfl, g2⟩, fun e => absurd hd16 e⟩
  · rw [if_neg hd16]
    have hsc : rdIn depth_scale_table t.depth = .ok (depth_scale_table.getD t.depth 0) := by
      rcases depth_cases hd with e | e | e | e | e
      all_goals first | exact absurd e hd16 | rw [e]; rfl
    rw [hsc, ok_bind]
    refine Ok.bind (colour_loop (f := fun v => v % 256 * depth_scale_table.getD t.depth 0 % 256) h (by omega)) ?_
    rintro ⟨tc, s⟩ ⟨g1, g2⟩
    exact Ok.pure' ⟨s, tc, t.tc16, g1, rfl, fun e => absurd e hd16, fun _ => ⟨rfl, g2⟩⟩

theorem trns_ok {t : PState} {len : Nat} (h : CtxOk t.s) (H : t.first = false → HdrOk t) (h3 : t.tc.length = 3) :
    Ok (chunkTRNS len t) fun r =>
      (∀ t', r = some t' → t.first = false ∧ t.idata = [] ∧
        ((t.color = 3 ∧ len ≤ t.palLen ∧ 0 < t.palLen ∧ ∃ s pal, Next t.s s ((Ctx.rem t.s).drop len) ∧ AlphaSet t.pal pal (Ctx.rem t.s) len ∧ t' = { t with s := s, pal := pal, palN := 4 }) ∨
        ((t.color = 0 ∨ t.color = 2) ∧ len = t.n * 2 ∧ ∃ s tc tc16, Next t.s s ((Ctx.rem t.s).drop len) ∧ t' = { t with s := s, tc := tc, tc16 := tc16, trans := true } ∧
          (t.depth = 16 → tc = t.tc ∧ ColourSet t.tc16 tc16 (fun i => num16 ((Ctx.rem t.s).drop (2 * i))) t.n) ∧
          (t.depth ≠ 16 → tc16 = t.tc16 ∧ ColourSet t.tc tc (fun i => num16 ((Ctx.rem t.s).drop (2 * i)) % 256 * depth_scale_table.getD t.depth 0 % 256) t.n)))) ∧
      (t.first = false → t.idata = [] → ((t.color = 3 ∧ len ≤ t.palLen ∧ 0 < t.palLen) ∨ ((t.color = 0 ∨ t.color = 2) ∧ len = t.n * 2)) → r ≠ none) := by
  rw [chunkTRNS]
  cases hf : t.first with
  | true =>
    rw [if_pos rfl]
    exact Ok.pure' ⟨fun t' e => (by cases e), fun e => (by cases e)⟩
  | false =>
    have H := H hf
    have hk := H.kind
    rw [if_neg (by simp)]
    by_cases hid : t.idata = []
    swap
    · rw [if_pos hid]
      exact Ok.pure' ⟨fun t' e => (by cases e), fun _ e => absurd e hid⟩
    rw [if_neg (by simpa using hid)]
    by_cases hc3 : t.color = 3
    · have hpn := (H.pal3 hc3).1
      rw [if_pos (show t.palN ≠ 0 by omega)]
      by_cases h1 : t.palLen = 0
      · rw [if_pos h1]
        exact Ok.pure' ⟨fun t' e => (by cases e), fun _ _ e => absurd e (by omega)⟩
      rw [if_neg h1]
      by_cases h2 : t.palLen < len
      · rw [if_pos h2]
        exact Ok.pure' ⟨fun t' e => (by cases e), fun _ _ e => absurd e (by omega)⟩
      rw [if_neg h2]
      have hmax := H.palMax
      have hsz := H.palSize
      refine Ok.bind (forN_ok (I := fun i (r : Cells UInt8 × Ctx) => Next t.s r.2 ((Ctx.rem t.s).drop i) ∧ AlphaSet t.pal r.1 (Ctx.rem t.s) i)
        ⟨⟨h, rfl, rfl⟩, rfl, fun i hi => absurd hi (by omega), fun _ _ => rfl⟩ ?_) ?_
      · rintro i hi ⟨pal, s⟩ ⟨hs, hP⟩
        simp only at hs hP ⊢
        obtain ⟨a1, a2⟩ := get8_next hs.ok
        rw [hs.rem] at a1 a2
        rw [tail_drop] at a2
        rw [headD_eq, drop_getD, Nat.add_zero] at a1
        have hl := hP.len
        rw [a1, wr_ok (by omega), ok_bind]
        refine Ok.pure' ⟨hs.trans a2, by rw [List.length_set]; exact hl, fun k hk => ?_, fun q hq => ?_⟩
        · rw [List.getElem?_set]
          by_cases hki : i = k
          · rw [if_pos (by omega), if_pos (by omega), hki]
          · rw [if_neg (by omega)]
            exact hP.set k (by omega)
        · rw [List.getElem?_set, if_neg (by have := hq i (by omega); omega)]
          exact hP.rest q fun k hk => hq k (by omega)
      · rintro ⟨pal, s⟩ ⟨hs, hP⟩
        exact Ok.pure' ⟨fun t' e => ⟨rfl, hid, Or.inl ⟨hc3, by omega, by omega, s, pal, hs, hP, (Option.some.inj e).symm⟩⟩, fun _ _ _ => by simp⟩
    · rw [if_neg (show ¬ t.palN ≠ 0 by have := H.pal0 hc3; omega)]
      by_cases h1 : t.n % 2 = 0
      · rw [if_pos h1]
        exact Ok.pure' ⟨fun t' e => (by cases e), fun _ _ e => absurd e (by omega)⟩
      rw [if_neg h1]
      by_cases h2 : len ≠ t.n * 2
      · rw [if_pos h2]
        exact Ok.pure' ⟨fun t' e => (by cases e), fun _ _ e => absurd e (by omega)⟩
      rw [if_neg h2]
      refine Ok.bind (trans_ok h H.depth (by omega) h3 H.tc16Size) ?_
      rintro t' ⟨s, tc, tc16, g1, rfl, g2, g3⟩
      refine Ok.pure' ⟨fun t' e => ⟨rfl, hid, Or.inr ⟨by omega, by omega, s, tc, tc16, ?_, (by rw [← hf]; exact (Option.some.inj e).symm), g2, g3⟩⟩, fun _ _ _ => by simp⟩
      rwa [show 2 * t.n = len by omega] at g1

/-! ### IDAT -/

/-- `D` has been collected. -/
structure Coll (t : PState) (D : List UInt8) : Prop where
  off : t.ioff = D.length
  room : t.ioff ≤ t.idata.length
  data : ∀ q, q < D.length → t.idata[q]? = some (some (D.getD q 0))
  limit : t.ioff < 2147483648
  size : t.idata = [] ∨ 4096 ≤ t.idata.length

theorem limit_ok {need len limit : Nat} (hn : need < 2147483648) (hl : limit = 0 ∨ 4096 ≤ limit) :
    Ok (idataLimit need len limit) fun l => need ≤ l ∧ limit ≤ l ∧ 4096 ≤ l := by
  rw [idataLimit]
  refine whileFuel_ok (I := fun l => limit ≤ l ∧ 4096 ≤ l) (μ := fun l => 32 - l.size) (S := fun l => need ≤ l ∧ limit ≤ l ∧ 4096 ≤ l) ?_ (by omega) ?_
  · split_ifs <;> omega
  · intro l hl'
    by_cases h : l < need
    · rw [if_pos h]
      refine Ok.pure' ?_
      simp only [Bool.false_eq_true, if_false]
      have hu : u32 (l * 2) = l * 2 := u32_eq (by omega)
      have hs : l.size ≤ 31 := Nat.size_le.2 (by norm_num; omega)
      have hs2 : (l * 2).size = l.size + 1 := by
        rw [Nat.mul_comm, ← Nat.bit_false_apply, Nat.size_bit]
        simp only [Nat.bit_false_apply]
        omega
      rw [hu, hs2]
      exact ⟨⟨by omega, by omega⟩, by omega⟩
    · rw [if_neg h]
      refine Ok.pure' ?_
      simp only [if_true]
      omega

theorem idat_ok {m : PngMem} {t : PState} {len : Nat} {D : List UInt8} (h : CtxOk t.s) (C : Coll t D) :
    Ok (chunkIDAT m len t) fun r =>
      (∀ t', r = some t' → t.first = false ∧ len ≤ (Ctx.rem t.s).length ∧ ∃ s d o g, Next t.s s ((Ctx.rem t.s).drop len) ∧ t' = { t with s := s, idata := d, ioff := o, grown := g } ∧
        Coll t' (D ++ (Ctx.rem t.s).take len)) ∧
      (t.first = false → (t.palN ≠ 0 → t.palLen ≠ 0) → len ≤ 1073741824 → D.length + len < 2147483648 → len ≤ (Ctx.rem t.s).length → (∀ k, m.idata k = true) → r ≠ none) := by
  rw [chunkIDAT]
  cases hf : t.first with
  | true =>
    rw [if_pos rfl]
    exact Ok.pure' ⟨fun t' e => (by cases e), fun e => (by cases e)⟩
  | false =>
    rw [if_neg (by simp)]
    by_cases h1 : t.palN ≠ 0 ∧ t.palLen = 0
    · rw [if_pos h1]
      exact Ok.pure' ⟨fun t' e => (by cases e), fun _ e => absurd h1.2 (e h1.1)⟩
    rw [if_neg h1]
    by_cases h2 : 1073741824 < len
    · rw [if_pos h2]
      exact Ok.pure' ⟨fun t' e => (by cases e), fun _ _ e => absurd e (by omega)⟩
    rw [if_neg h2]
    have hoff := C.off
    have hlim := C.limit
    by_cases h3 : i32OfU32 (t.ioff + len) < i32OfU32 t.ioff
    · rw [if_pos h3]
      refine Ok.pure' ⟨fun t' e => (by cases e), fun _ _ _ e => ?_⟩
      rw [i32OfU32_eq (by omega), i32OfU32_eq (by omega)] at h3
      omega
    rw [if_neg h3]
    have hsum : t.ioff + len < 2147483648 := by
      by_contra hc
      apply h3
      rw [i32OfU32_eq (n := t.ioff) (by omega), i32OfU32, if_neg (by omega)]
      omega
    have room : Ok (idataRoom m len t) fun r => (∀ t', r = some t' → ∃ d g, t' = { t with idata := d, grown := g } ∧ t.ioff + len ≤ d.length ∧ Coll t' D) ∧
        (r = none → (∀ k, m.idata k = true) → False) := by
      rw [idataRoom]
      by_cases hr : t.idata.length < t.ioff + len
      · rw [if_pos hr]
        refine Ok.bind (limit_ok hsum (by
          rcases C.size with e | e
          · exact Or.inl (by rw [e]; rfl)
          · exact Or.inr e)) ?_
        intro l hl
        cases hm : m.idata t.grown with
        | false =>
          rw [if_neg (by simp)]
          refine Ok.pure' ⟨fun t' e => (by cases e), fun _ e => ?_⟩
          rw [e] at hm
          cases hm
        | true =>
          rw [if_pos rfl]
          refine Ok.pure' ⟨fun t' e => ?_, fun e => (by cases e)⟩
          refine ⟨_, _, (Option.some.inj e).symm, by rw [List.length_append, List.length_replicate]; omega, ?_⟩
          rw [← Option.some.inj e]
          refine ⟨hoff, ?_, fun q hq => ?_, hlim, Or.inr ?_⟩
          · show t.ioff ≤ (t.idata ++ _).length
            rw [List.length_append]
            have := C.room
            omega
          · show (t.idata ++ _)[q]? = _
            have := C.room
            rw [List.getElem?_append_left (by omega)]
            exact C.data q hq
          · show 4096 ≤ (t.idata ++ _).length
            rw [List.length_append, List.length_replicate]
            omega
      · rw [if_neg hr]
        refine Ok.pure' ⟨fun t' e => ?_, fun e => (by cases e)⟩
        obtain rfl := Option.some.inj e
        exact ⟨t.idata, t.grown, rfl, by omega, C⟩
    refine Ok.bind room ?_
    rintro r ⟨q1, q2⟩
    cases r with
    | none => exact Ok.pure' ⟨fun t' e => (by cases e), fun _ _ _ _ _ e => (q2 rfl e).elim⟩
    | some t1 =>
      obtain ⟨d, g, rfl, hd, C'⟩ := q1 t1 rfl
      simp only
      rcases getn_next h len with ⟨g1, g2, g3⟩ | ⟨g1, g2⟩
      · generalize hG : getn t.s len = G at *
        obtain ⟨G1, G2⟩ := G
        simp only at g2 g3
        subst g2
        simp only
        have hcopy : Ok (memcpyIn d t.ioff ((Ctx.rem t.s).take len) 0 len) fun d' => d'.length = d.length ∧ (∀ q, q < D.length → d'[q]? = some (some (D.getD q 0))) ∧
            ∀ q, q < len → d'[t.ioff + q]? = some (some ((Ctx.rem t.s).getD q 0)) := by
          rw [memcpyIn]
          refine forN_ok (I := fun k (d' : Cells UInt8) => d'.length = d.length ∧ (∀ q, q < D.length → d'[q]? = some (some (D.getD q 0))) ∧
            ∀ q, q < k → d'[t.ioff + q]? = some (some ((Ctx.rem t.s).getD q 0))) ⟨rfl, C'.data, fun q hq => absurd hq (by omega)⟩ ?_
          rintro k hk d' ⟨e1, e2, e3⟩
          have hrd : rdIn ((Ctx.rem t.s).take len) (0 + k) = .ok ((Ctx.rem t.s).getD k 0) := by
            rw [rdIn, Nat.zero_add, List.getElem?_take, if_pos hk, List.getElem?_eq_getElem (by omega), List.getD_eq_getElem _ _ (by omega)]
          rw [hrd, ok_bind, wr_ok (by omega)]
          refine Ok.pure' ⟨by rw [List.length_set]; exact e1, fun q hq => ?_, fun q hq => ?_⟩
          · rw [List.getElem?_set, if_neg (by omega)]
            exact e2 q hq
          · rw [List.getElem?_set]
            by_cases hqk : k = q
            · rw [if_pos (by omega), if_pos (by omega), hqk]
            · rw [if_neg (by omega)]
              exact e3 q (by omega)
        refine Ok.bind hcopy ?_
        rintro d' ⟨e1, e2, e3⟩
        refine Ok.pure' ⟨fun t' e => ?_, fun _ _ _ _ _ _ => by simp⟩
        refine ⟨trivial, g1, G2, d', t.ioff + len, g, g3, (by rw [← hf]; exact (Option.some.inj e).symm), ?_⟩
        rw [← Option.some.inj e]
        have htl : ((Ctx.rem t.s).take len).length = len := by rw [List.length_take]; omega
        refine ⟨?_, ?_, fun q hq => ?_, hsum, ?_⟩
        · show t.ioff + len = _
          rw [List.length_append, htl, hoff]
        · show t.ioff + len ≤ d'.length
          omega
        · show d'[q]? = _
          rw [List.length_append, htl] at hq
          by_cases hqD : q < D.length
          · rw [e2 q hqD, List.getD_append _ _ _ _ hqD]
          · have := e3 (q - D.length) (by omega)
            rw [hoff, show D.length + (q - D.length) = q by omega] at this
            rw [this, List.getD_append_right _ _ _ _ (by omega), List.getD_eq_getElem?_getD, List.getD_eq_getElem?_getD, List.getElem?_take, if_pos (by omega)]
        · show d' = [] ∨ 4096 ≤ d'.length
          rcases C'.size with e | e
          · have e : d = [] := e
            left
            rw [e] at e1
            exact List.eq_nil_of_length_eq_zero e1
          · have e : 4096 ≤ d.length := e
            right
            omega
      · generalize hG : getn t.s len = G at *
        obtain ⟨G1, G2⟩ := G
        simp only at g2
        subst g2
        exact Ok.pure' ⟨fun t' e => (by cases e), fun _ _ _ _ e => absurd e (by omega)⟩

end FlatCV
