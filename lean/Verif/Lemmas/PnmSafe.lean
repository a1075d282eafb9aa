/-
The PNM decoder: the header of any file, and the pixels.
-/
import Verif.Model.Pnm
import Verif.Lemmas.PngCtx
import Verif.Lemmas.PngColour
import Verif.Lemmas.PngFinish

namespace FlatCV
open Model

/-! ### Reading ends -/

/-- What can still be read, counting the end. -/
def Ctx.togo (s : Ctx) : Nat := (Ctx.rem s).length + if s.live then 1 else 0

/-- `s` after reading. -/
structure ReadOn (s s' : Ctx) : Prop where
  ok : CtxOk s'
  togo : Ctx.togo s' ≤ Ctx.togo s
  rem : (Ctx.rem s').length ≤ (Ctx.rem s).length

theorem ReadOn.refl {s : Ctx} (h : CtxOk s) : ReadOn s s := ⟨h, le_rfl, le_rfl⟩

theorem ReadOn.trans {s s' s'' : Ctx} (h : ReadOn s s') (h' : ReadOn s' s'') : ReadOn s s'' := ⟨h'.ok, h'.togo.trans h.togo, h'.rem.trans h.rem⟩

theorem get8_live {s : Ctx} (h : (get8 s).2.live = true) : s.live = true := by
  rw [get8] at h
  by_cases hb : s.buf = []
  · rw [if_neg (by simpa using hb)] at h
    by_cases hl : s.live = true
    · exact hl
    · rw [if_neg hl] at h
      exact h
  · rw [if_pos hb] at h
    exact h

theorem get8_later {s : Ctx} (h : CtxOk s) : ReadOn s (get8 s).2 := by
  obtain ⟨_, h2⟩ := get8_next h
  have hr : (Ctx.rem (get8 s).2).length ≤ (Ctx.rem s).length := by rw [h2.rem, List.length_tail]; omega
  refine ⟨h2.ok, ?_, hr⟩
  unfold Ctx.togo
  by_cases hl : (get8 s).2.live = true
  · rw [if_pos hl, if_pos (get8_live hl)]
    omega
  · rw [if_neg hl]
    omega

theorem fuel_togo (s : Ctx) : Ctx.togo s < s.fuel := by
  unfold Ctx.togo Ctx.fuel Ctx.rem
  rw [List.length_append, List.length_drop]
  split <;> omega

variable {feof : Ctx → Bool}

theorem get8_togo (hf : ∀ s : Ctx, s.live = false → s.buf = [] → feof s = true) {s : Ctx} (h : CtxOk s) (he : at_eof feof s = false) :
    Ctx.togo (get8 s).2 < Ctx.togo s := by
  obtain ⟨_, h2⟩ := get8_next h
  unfold Ctx.togo
  rw [h2.rem, List.length_tail]
  by_cases hr : Ctx.rem s = []
  · have hb : s.buf = [] := by
      rw [Ctx.rem] at hr
      exact (List.append_eq_nil_iff.mp hr).1
    have hd : s.file.drop s.fpos = [] := by
      rw [Ctx.rem] at hr
      exact (List.append_eq_nil_iff.mp hr).2
    cases hl : s.live with
    | false =>
      rw [at_eof, hf s hl hb, hb] at he
      simp at he
    | true =>
      have : (get8 s).2.live = false := by
        rw [get8, if_neg (by simpa using hb), if_pos hl, refill, nextByte, if_pos (by rw [hd]; rfl)]
      rw [this, hr]
      simp
  · have : 0 < (Ctx.rem s).length := List.length_pos_iff.mpr hr
    by_cases hl : (get8 s).2.live = true
    · rw [if_pos hl, if_pos (get8_live hl)]
      omega
    · rw [if_neg hl]
      omega

section
variable (hf : ∀ s : Ctx, s.live = false → s.buf = [] → feof s = true)
include hf

theorem pnmSpaces_out {E : Fault → Prop} : ∀ (n : Nat) (c : UInt8) (s : Ctx), CtxOk s → Ctx.togo s < n → Outc E (pnmSpaces feof n c s) fun r => ReadOn s r.2 := by
  intro n
  induction n with
  | zero => intro c s _ h; omega
  | succ n ih =>
    intro c s hs hn
    rw [pnmSpaces]
    split
    · rename_i hc
      have he : at_eof feof s = false := by
        rw [Bool.and_eq_true, Bool.not_eq_true'] at hc
        exact hc.1
      have hl := get8_later hs
      have := get8_togo hf hs he
      exact (ih _ _ hl.ok (by omega)).mono fun r hr => hl.trans hr
    · exact Outc.pure (ReadOn.refl hs)

theorem pnmComment_out {E : Fault → Prop} : ∀ (n : Nat) (c : UInt8) (s : Ctx), CtxOk s → Ctx.togo s < n →
    Outc E (pnmComment feof n c s) fun r => ReadOn s r.2 ∧ (at_eof feof s = false → c ≠ 10 → c ≠ 13 → Ctx.togo r.2 < Ctx.togo s) := by
  intro n
  induction n with
  | zero => intro c s _ h; omega
  | succ n ih =>
    intro c s hs hn
    rw [pnmComment]
    split
    · rename_i hc
      have he : at_eof feof s = false := by
        rw [Bool.and_eq_true, Bool.not_eq_true'] at hc
        exact hc.1
      have hl := get8_later hs
      have := get8_togo hf hs he
      exact (ih _ _ hl.ok (by omega)).mono fun r hr => ⟨hl.trans hr.1, fun _ _ _ => by have := hr.1.togo; omega⟩
    · rename_i hc
      refine Outc.pure ⟨ReadOn.refl hs, fun h1 h2 h3 => ?_⟩
      rw [h1] at hc
      simp [h2, h3] at hc

theorem pnmSkip_out {E : Fault → Prop} : ∀ (n : Nat) (c : UInt8) (s : Ctx), CtxOk s → Ctx.togo s < n → Outc E (pnmSkip feof n c s) fun r => ReadOn s r.2 := by
  intro n
  induction n with
  | zero => intro c s _ h; omega
  | succ n ih =>
    intro c s hs hn
    rw [pnmSkip]
    refine Outc.bind (pnmSpaces_out hf _ c s hs (fuel_togo s)) fun r hr => ?_
    by_cases hc : (at_eof feof r.2 || decide (r.1 ≠ 35)) = true
    · rw [if_pos hc]
      exact Outc.pure hr
    · rw [if_neg hc]
      rw [Bool.or_eq_true, not_or, Bool.not_eq_true, decide_eq_true_eq, not_not] at hc
      refine Outc.bind (pnmComment_out hf _ r.1 r.2 hr.ok (fuel_togo r.2)) fun q hq => ?_
      have h1 := hq.2 hc.1 (by rw [hc.2]; decide) (by rw [hc.2]; decide)
      have h2 := hr.togo
      exact (ih _ _ hq.1.ok (by omega)).mono fun t ht => (hr.trans hq.1).trans ht

theorem pnmDigits_out {E : Fault → Prop} : ∀ (n v : Nat) (c : UInt8) (s : Ctx), CtxOk s → Ctx.togo s < n →
    v < 214748364 ∨ (v = 214748364 ∧ ¬ (55 < c.toNat ∧ c.toNat < 128)) → Outc E (pnmDigits feof n v c s) fun r => ReadOn s r.2.2 := by
  intro n
  induction n with
  | zero => intro v c s _ h; omega
  | succ n ih =>
    intro v c s hs hn hv
    rw [pnmDigits]
    split
    · rename_i hc
      rw [Bool.and_eq_true, Bool.not_eq_true', pnm_isdigit, decide_eq_true_eq] at hc
      rw [i32_ok (by constructor <;> omega), ok_bind, i32_ok (by constructor <;> omega), ok_bind]
      have hl := get8_later hs
      have := get8_togo hf hs hc.1
      split
      · exact Outc.pure hl
      · rename_i hb
        exact (ih _ _ _ hl.ok (by omega) (by omega)).mono fun r hr => hl.trans hr
    · exact Outc.pure (ReadOn.refl hs)

/-- What the header of any file gives. -/
theorem pnmHeader_out {E : Fault → Prop} {n : Nat} {s : Ctx} (hs : CtxOk s) : Outc E (pnmHeader feof n s) fun r => ∀ h, r = some h →
    (h.bits = 8 ∨ h.bits = 16) ∧ 1 ≤ h.x ∧ 1 ≤ h.y ∧ h.n = n ∧ ReadOn s h.s := by
  rw [pnmHeader]
  have hl := get8_later hs
  have h0 := hl.togo
  have h00 := fuel_togo s
  refine Outc.bind (pnmSkip_out hf _ _ _ hl.ok (by omega)) fun r hr => ?_
  refine Outc.bind (pnmDigits_out hf _ 0 _ _ hr.ok (fuel_togo _) (by omega)) fun w hw => ?_
  split
  · exact Outc.pure fun h e => (by cases e)
  rename_i h1
  refine Outc.bind (pnmSkip_out hf _ _ _ hw.ok (fuel_togo _)) fun r2 hr2 => ?_
  refine Outc.bind (pnmDigits_out hf _ 0 _ _ hr2.ok (fuel_togo _) (by omega)) fun k hk => ?_
  split
  · exact Outc.pure fun h e => (by cases e)
  rename_i h2
  refine Outc.bind (pnmSkip_out hf _ _ _ hk.ok (fuel_togo _)) fun r3 hr3 => ?_
  refine Outc.bind (pnmDigits_out hf _ 0 _ _ hr3.ok (fuel_togo _) (by omega)) fun m hm => ?_
  have hall := ((((((hl.trans hr).trans hw).trans hr2).trans hk).trans hr3).trans hm)
  split
  · exact Outc.pure fun h e => (by cases e)
  split
  · exact Outc.pure fun h e => (by cases e; exact ⟨Or.inr rfl, Nat.pos_of_ne_zero h1, Nat.pos_of_ne_zero h2, rfl, hall⟩)
  · exact Outc.pure fun h e => (by cases e; exact ⟨Or.inl rfl, Nat.pos_of_ne_zero h1, Nat.pos_of_ne_zero h2, rfl, hall⟩)

end

/-! ### Pixels -/

/-- Colours as four channels. -/
def fourOf (n full : Nat) (g : Nat → Nat) (c : Nat) : Nat := if c < 3 then g (if n = 3 then c else 0) else full

theorem toFour_colour {count n full : Nat} {src t : Cells Nat} {g : Nat → Nat → Nat} (hn : n = 1 ∨ n = 3) (hs : HoldsPix src count n g) (ht : t.length = count * 4) :
    Ok (toFour count n full src t) fun s => HoldsPix s count 4 fun p => fourOf n full (g p) := by
  rw [toFour]
  refine (put_loop_out (E := fun _ => False) ht ?_).ok (by simp)
  intro i hi s hst
  have hb := mul_block (m := 4) hi
  have e0 : src[i * n]? = some (some (g i 0)) := by have := hs.2 i hi 0 (by omega); rwa [Nat.add_zero] at this
  have e : ∀ c, 0 < c → c < 3 → rdIf (n = 3) src (i * n + c) (g i 0) = .ok (fourOf n full (g i) c) := fun c h0 hc => by
    rw [rdIf, fourOf, if_pos hc]
    by_cases h3 : n = 3
    · rw [if_pos h3, if_pos h3]
      exact rd_ok (hs.2 i hi c (by omega))
    · rw [if_neg h3, if_neg h3]
      rfl
  have r3 : rdIf (n = 2) src (i * n + 1) full = .ok (fourOf n full (g i) 3) := by
    rw [rdIf, if_neg (by omega), fourOf, if_neg (by omega)]
    rfl
  rw [rd_ok e0, ok_bind, e 1 (by omega) (by omega), ok_bind, e 2 (by omega) (by omega), ok_bind, r3, ok_bind]
  have h0 : g i 0 = fourOf n full (g i) 0 := by rw [fourOf, if_pos (by omega), ite_self]
  have := put_four (E := fun _ => False) (s := s) (q := i * 4) (by rw [hst.1, ht]; exact hb) (fourOf n full (g i))
    (m0 := pure (g i 0)) (m1 := pure (fourOf n full (g i) 1)) (m2 := pure (fourOf n full (g i) 2)) (m3 := pure (fourOf n full (g i) 3)) h0 rfl rfl rfl
  simpa only [pure_bind'] using this

/-- The byte of sample `k` that is used: the only one, or the second one of the pair. -/
def usedByte (bits : Nat) (d : List UInt8) (k : Nat) : UInt8 := if bits = 16 then d.getD (2 * k + 1) 0 else d.getD k 0

/-- The four bytes of the pixels. -/
def PnmShows (h : PnmHead) (d : List UInt8) (L : Loaded) : Prop :=
  L.x = h.x ∧ L.y = h.y ∧ L.n = h.n ∧ L.data.length = h.x * h.y * 4 ∧
  ∀ p, p < h.x * h.y → (∀ c, c < 3 → L.data[p * 4 + c]? = some (some (usedByte h.bits d (if h.n = 3 then p * 3 + c else p)))) ∧ L.data[p * 4 + 3]? = some (some 255)

theorem pnmSample_lt {count n p c : Nat} (hp : p < count) (hc : c < n) : p * n + c < count * n := by
  have := mul_block (m := n) hp
  omega

theorem pnm_bytes_pix {count n : Nat} {d : List UInt8} (hd : d.length = count * n) : HoldsPix (d.map fun b => some b.toNat) count n fun p c => (d.getD (p * n + c) 0).toNat := by
  refine ⟨by rw [List.length_map, hd], fun p hp c hc => ?_⟩
  have := pnmSample_lt hp hc
  rw [List.getElem?_map, List.getElem?_eq_getElem (by omega)]
  show some (some d[p * n + c].toNat) = some (some (d.getD (p * n + c) 0).toNat)
  rw [List.getD_eq_getElem?_getD, List.getElem?_eq_getElem (by omega)]
  rfl

theorem pnm_words_pix {count n : Nat} {d : List UInt8} (hd : d.length = count * n * 2) :
    HoldsPix (words d) count n fun p c => (d.getD (2 * (p * n + c)) 0).toNat + 256 * (d.getD (2 * (p * n + c) + 1) 0).toNat := by
  refine ⟨by rw [words, List.length_map, List.length_range, hd]; omega, fun p hp c hc => ?_⟩
  have := pnmSample_lt hp hc
  rw [words, List.getElem?_map, List.getElem?_eq_getElem (by rw [List.length_range]; omega), List.getElem_range]
  rfl

theorem pnm_second_byte (a b : UInt8) : UInt8.ofNat ((a.toNat + 256 * b.toNat) / 256 % 256) = b := by
  have h1 : a.toNat < 256 := a.toNat_lt
  have h2 : b.toNat < 256 := b.toNat_lt
  rw [show (a.toNat + 256 * b.toNat) / 256 % 256 = b.toNat by omega, UInt8.ofNat_toNat]

theorem pnm_index_eq {n p c : Nat} (hn : n = 1 ∨ n = 3) : p * n + (if n = 3 then c else 0) = if n = 3 then p * 3 + c else p := by
  rcases hn with rfl | rfl
  · simp
  · simp

variable {m : PnmMem} {h : PnmHead} {d : List UInt8}

theorem pnmConvert_8 (hb : h.bits = 8) (hn : h.n = 1 ∨ h.n = 3) (hd : d.length = h.n * h.x * h.y * 1) :
    Ok (pnmConvert m h d) fun r => (∀ L, r = some L → PnmShows h d L) ∧ (m.convert = true → 1 ≤ h.y → 4 * h.x * h.y ≤ 2147483647 → r ≠ none) := by
  rw [pnmConvert, if_neg (by omega)]
  by_cases hc : (!(mad3ok 4 h.x h.y 0 && m.convert)) = true
  · rw [if_pos hc]
    refine Ok.pure' ⟨fun L e => (by cases e), fun h1 hx h2 => ?_⟩
    exfalso
    rw [h1, mad3ok_of (by omega) (by omega)] at hc
    cases hc
  · rw [if_neg hc]
    have hl : h.x * h.y * h.n = h.n * h.x * h.y * 1 := by ring
    refine Ok.bind (toFour_colour hn (pnm_bytes_pix (by rw [hd, hl])) (by rw [List.length_replicate]; ring)) fun t ht => Ok.pure' ⟨?_, fun _ _ _ e => by cases e⟩
    intro L e
    cases e
    refine ⟨rfl, rfl, rfl, by rw [asBytes, List.length_map, ht.1], fun p hp => ⟨fun c hc => ?_, ?_⟩⟩
    · have := asBytes_get (ht.2 p hp c (by omega))
      simp only at this
      rw [fourOf, if_pos hc, pnm_index_eq hn, UInt8.ofNat_toNat] at this
      rw [usedByte, if_neg (by omega)]
      exact this
    · exact asBytes_get (ht.2 p hp 3 (by omega))

theorem pnmConvert_16 (hb : h.bits = 16) (hn : h.n = 1 ∨ h.n = 3) (hd : d.length = h.n * h.x * h.y * 2) (hs : h.x * h.y < 536870912) :
    Ok (pnmConvert m h d) fun r => (∀ L, r = some L → PnmShows h d L) ∧ (m.convert = true → m.reduce = true → r ≠ none) := by
  rw [pnmConvert, if_pos hb]
  by_cases hc : m.convert = true
  · rw [hc, if_neg (by decide)]
    have hl : h.x * h.y * h.n * 2 = h.n * h.x * h.y * 2 := by ring
    have hz : u32 (4 * h.x * h.y * 2) / 2 = h.x * h.y * 4 := by
      have : 4 * h.x * h.y * 2 = 8 * (h.x * h.y) := by ring
      rw [this, u32]
      omega
    refine Ok.bind (toFour_colour hn (pnm_words_pix (by rw [hd, hl])) (by rw [List.length_replicate, hz])) fun t ht => ?_
    rw [i32_ok (by constructor <;> omega), ok_bind, i32_ok (by constructor <;> omega), ok_bind]
    have e : ((h.x : Int) * h.y * 4).toNat = h.x * h.y * 4 := by omega
    rw [e]
    cases hm : m.reduce with
    | false => exact Ok.pure' ⟨fun L e => (by cases e), fun _ h => (by cases h)⟩
    | true =>
      rw [if_pos rfl]
      refine Ok.bind ((put_loop_out (E := fun _ => False) (x := h.x * h.y * 4) (m := 1) (g := fun q _ =>
        fourOf h.n 65535 (fun c => (d.getD (2 * (q / 4 * h.n + c)) 0).toNat + 256 * (d.getD (2 * (q / 4 * h.n + c) + 1) 0).toNat) (q % 4) / 256 % 256)
        (by simp) ?_).ok (by simp)) ?_
      · intro i hi s hs'
        have := ht.2 (i / 4) (by omega) (i % 4) (by omega)
        rw [show i / 4 * 4 + i % 4 = i by omega] at this
        rw [rd_ok this, ok_bind, Nat.mul_one]
        exact Outc.of_ok (Put.wr1 (by rw [hs'.1, List.length_replicate]; exact hi))
      · intro r hr
        refine Ok.pure' ⟨?_, fun _ _ e => by cases e⟩
        intro L e
        cases e
        have hr2 : ∀ p, p < h.x * h.y → ∀ c, c < 4 → r[p * 4 + c]? = some (some (fourOf h.n 65535 (fun c => (d.getD (2 * (p * h.n + c)) 0).toNat +
            256 * (d.getD (2 * (p * h.n + c) + 1) 0).toNat) c / 256 % 256)) := by
          intro p hp c hc
          have := hr.2 (p * 4 + c) (by omega) 0 (by omega)
          simp only at this
          rw [Nat.mul_one, Nat.add_zero, show (p * 4 + c) / 4 = p by omega, show (p * 4 + c) % 4 = c by omega] at this
          exact this
        refine ⟨rfl, rfl, rfl, by rw [asBytes, List.length_map, hr.1, Nat.mul_one], fun p hp => ⟨fun c hc => ?_, ?_⟩⟩
        · have := asBytes_get (hr2 p hp c (by omega))
          rw [fourOf, if_pos hc, pnm_index_eq hn, pnm_second_byte] at this
          rw [usedByte, if_pos hb]
          exact this
        · have := asBytes_get (hr2 p hp 3 (by omega))
          rw [fourOf, if_neg (by omega)] at this
          exact this
  · rw [Bool.not_eq_true] at hc
    rw [hc, if_pos (by decide)]
    exact Ok.pure' ⟨fun L e => (by cases e), fun h => (by cases h)⟩

theorem pnmConvert_over (hb : h.bits = 16) (hn : h.n = 1) (hd : d.length = h.n * h.x * h.y * 2) (hs : 536870912 ≤ h.x * h.y) (hs2 : h.x * h.y < 1073741824) (hm : m.convert = true) :
    pnmConvert m h d = .error .oobWrite := by
  rw [pnmConvert, if_pos hb, hm, if_neg (by decide), hn]
  have hl : h.x * h.y * 1 * 2 = h.n * h.x * h.y * 2 := by rw [hn]; ring
  have hz : u32 (4 * h.x * h.y * 2) / 2 < h.x * h.y * 4 := by
    have : 4 * h.x * h.y * 2 = 8 * (h.x * h.y) := by ring
    rw [this, u32]
    omega
  rw [toFour_small (pnm_words_pix (n := 1) (by rw [hd, hl])) (by rw [List.length_replicate]; exact hz)]
  rfl

/-- The outcome of the second half of the loader. -/
theorem pnmPixels_out (hs : CtxOk h.s) (hb : h.bits = 8 ∨ h.bits = 16) (hn : h.n = 1 ∨ h.n = 3) :
    Outc (fun e => e = .oobWrite ∧ h.bits = 16 ∧ h.n = 1 ∧ 536870912 ≤ h.x * h.y ∧ h.x * h.y * 2 ≤ (Ctx.rem h.s).length) (pnmPixels m h) fun r =>
      ∀ L, r = some L → h.x ≤ 16777216 ∧ h.y ≤ 16777216 ∧ PnmShows h ((Ctx.rem h.s).take (h.n * h.x * h.y * (h.bits / 8))) L := by
  rw [pnmPixels]
  split
  · exact Outc.pure fun L e => (by cases e)
  rename_i hy
  split
  · exact Outc.pure fun L e => (by cases e)
  rename_i hx
  split
  · exact Outc.pure fun L e => (by cases e)
  rename_i hk
  rw [Bool.not_eq_true', Bool.not_eq_false, mad4ok, Bool.and_eq_true, Bool.and_eq_true, mul2ok_iff] at hk
  have hlen := hk.1.2
  split
  · exact Outc.pure fun L e => (by cases e)
  rcases getn_next hs (h.n * h.x * h.y * (h.bits / 8)) with ⟨g1, g2, g3⟩ | ⟨g1, g2⟩
  · rw [g2]
    show Outc _ (pnmConvert m h _) _
    have hd : ((Ctx.rem h.s).take (h.n * h.x * h.y * (h.bits / 8))).length = h.n * h.x * h.y * (h.bits / 8) := by rw [List.length_take]; omega
    rcases hb with hb | hb
    · refine Outc.of_ok ((pnmConvert_8 hb hn (by rw [hd, hb])).mono fun r hr L e => ⟨by omega, by omega, hr.1 L e⟩)
    · by_cases hs : h.x * h.y < 536870912
      · refine Outc.of_ok ((pnmConvert_16 hb hn (by rw [hd, hb]) hs).mono fun r hr L e => ⟨by omega, by omega, hr.1 L e⟩)
      · rw [hb] at hlen g1
        rcases hn with hn | hn
        · cases hm : m.convert with
          | true =>
            rw [pnmConvert_over hb hn (by rw [hd, hb]) (by omega) (by rw [hn, Nat.one_mul] at hlen; omega) hm]
            exact ⟨rfl, hb, hn, by omega, by rw [hn, Nat.one_mul] at g1; omega⟩
          | false =>
            rw [pnmConvert, if_pos hb, hm, if_pos (by decide)]
            exact Outc.pure fun L e => (by cases e)
        · rw [hn, Nat.mul_assoc 3] at hlen
          omega
  · rw [g2]
    exact Outc.pure fun L e => (by cases e)

/-- Enough memory, and sizes within the limits. -/
structure PnmFits (m : PnmMem) (h : PnmHead) : Prop where
  mem : m.data = true ∧ m.convert = true ∧ m.reduce = true
  width : 1 ≤ h.x ∧ h.x ≤ 16777216
  height : 1 ≤ h.y ∧ h.y ≤ 16777216
  size : h.x * h.y < 536870912
  data : h.n * h.x * h.y * (h.bits / 8) ≤ 2147483647

theorem pnmPixels_ok (hs : CtxOk h.s) (hb : h.bits = 8 ∨ h.bits = 16) (hn : h.n = 1 ∨ h.n = 3) (hm : PnmFits m h) (hr : h.n * h.x * h.y * (h.bits / 8) ≤ (Ctx.rem h.s).length) :
    Ok (pnmPixels m h) fun r => ∃ L, r = some L ∧ PnmShows h ((Ctx.rem h.s).take (h.n * h.x * h.y * (h.bits / 8))) L := by
  have hn0 : 1 ≤ h.n := by omega
  have hb0 : 1 ≤ h.bits / 8 := by omega
  have l1 := Nat.le_mul_of_pos_right (h.n * h.x * h.y) hb0
  have l2 := Nat.le_mul_of_pos_right (h.n * h.x) hm.height.1
  have hd := hm.data
  rw [pnmPixels, if_neg (by have := hm.height; omega), if_neg (by have := hm.width; omega), if_neg (by
    rw [mad4ok, mul2ok_iff.mpr (by omega), mul2ok_iff.mpr (by omega), mul2ok_iff.mpr (by omega), (addok_iff (by omega)).mpr (by omega)]
    decide), hm.mem.1, if_neg (by decide)]
  rcases getn_next hs (h.n * h.x * h.y * (h.bits / 8)) with ⟨g1, g2, g3⟩ | ⟨g1, g2⟩
  · rw [g2]
    show Ok (pnmConvert m h _) _
    have hd : ((Ctx.rem h.s).take (h.n * h.x * h.y * (h.bits / 8))).length = h.n * h.x * h.y * (h.bits / 8) := by rw [List.length_take]; omega
    have fin : ∀ r : Option Loaded, (∀ L, r = some L → PnmShows h ((Ctx.rem h.s).take (h.n * h.x * h.y * (h.bits / 8))) L) → r ≠ none →
        ∃ L, r = some L ∧ PnmShows h ((Ctx.rem h.s).take (h.n * h.x * h.y * (h.bits / 8))) L := by
      intro r h1 h2
      cases r with
      | none => exact absurd rfl h2
      | some L => exact ⟨L, rfl, h1 L rfl⟩
    rcases hb with hb | hb
    · refine (pnmConvert_8 hb hn (by rw [hd, hb])).mono fun r hr => fin r hr.1 (hr.2 hm.mem.2.1 hm.height.1 ?_)
      have := hm.size
      rw [Nat.mul_assoc]
      omega
    · exact (pnmConvert_16 hb hn (by rw [hd, hb]) hm.size).mono fun r hr => fin r hr.1 (hr.2 hm.mem.2.1 hm.mem.2.2)
  · omega

end FlatCV
