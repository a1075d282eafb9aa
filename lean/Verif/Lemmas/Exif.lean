import Verif.Model.Exif
import Verif.Spec.Exif

namespace FlatCV
open Model Spec

/-- The bytes `bs` are in the file at position `p`. -/
def At (f : List UInt8) (p : Nat) (bs : List UInt8) : Prop := bs <+: f.drop p

variable {f : List UInt8} {p : Nat}

theorem At.left {a b : List UInt8} (h : At f p (a ++ b)) : At f p a :=
  (List.prefix_append a b).trans h

theorem At.right {a b : List UInt8} (h : At f p (a ++ b)) : At f (p + a.length) b := by
  obtain ⟨t, ht⟩ := h
  refine ⟨t, ?_⟩
  rw [← List.drop_drop, ← ht]
  simp

theorem At.tail {a : UInt8} {b : List UInt8} (h : At f p (a :: b)) : At f (p + 1) b :=
  At.right (a := [a]) h

theorem At.length {bs : List UInt8} (h : At f p bs) (hb : bs ≠ []) : p + bs.length ≤ f.length := by
  have h1 := h.length_le
  rw [List.length_drop] at h1
  have := List.length_pos_iff.2 hb
  omega

theorem At.take {bs : List UInt8} (h : At f p bs) : (f.drop p).take bs.length = bs :=
  (List.prefix_iff_eq_take.1 h).symm

theorem fread_at {bs : List UInt8} (h : At f p bs) (hb : bs ≠ []) :
    fread f p bs.length = (some bs, p + bs.length) := by
  unfold fread
  rw [if_pos (h.length hb), h.take]

theorem u8_toNat_ofNat {n : Nat} : (UInt8.ofNat n).toNat = n % 256 := UInt8.toNat_ofNat'

theorem read_u16_at {le : Bool} {n : Nat} (h : At f p (u16b le n)) (hn : n < 65536) :
    read_u16 f le p = (n, p + 2) := by
  unfold read_u16
  cases le with
  | true =>
    simp only [u16b, if_true] at h
    rw [show (2 : Nat) = [UInt8.ofNat n, UInt8.ofNat (n / 256)].length from rfl,
      fread_at h (by simp)]
    simp only [u8_toNat_ofNat, if_true, List.length_cons, List.length_nil, Prod.mk.injEq, and_true]
    omega
  | false =>
    simp only [u16b, Bool.false_eq_true, if_false] at h
    rw [show (2 : Nat) = [UInt8.ofNat (n / 256), UInt8.ofNat n].length from rfl,
      fread_at h (by simp)]
    simp only [u8_toNat_ofNat, Bool.false_eq_true, if_false, List.length_cons, List.length_nil,
      Prod.mk.injEq, and_true]
    omega

theorem shl24_ok {n : Nat} (hn : n < 2147483648) :
    shl24 (UInt8.ofNat (n / 16777216)) = .ok (n / 16777216 * 16777216) := by
  unfold shl24
  rw [u8_toNat_ofNat, if_pos (by omega), Nat.mod_eq_of_lt (by omega)]

theorem shl24_err {n : Nat} (h0 : 2147483648 ≤ n) (hn : n < 4294967296) :
    shl24 (UInt8.ofNat (n / 16777216)) = .error .signedOverflow := by
  unfold shl24
  rw [u8_toNat_ofNat, if_neg (by omega)]

theorem u32b_length (le : Bool) (n : Nat) : (u32b le n).length = 4 := by cases le <;> rfl
theorem u16b_length (le : Bool) (n : Nat) : (u16b le n).length = 2 := by cases le <;> rfl

theorem read_u32_at {le : Bool} {n : Nat} (h : At f p (u32b le n)) (hn : n < 2147483648) :
    read_u32 f le p = .ok (n, p + 4) := by
  have hf := fread_at h (by cases le <;> simp [u32b])
  rw [u32b_length] at hf
  unfold read_u32
  rw [hf]
  cases le with
  | true =>
    simp only [u32b, if_true]
    rw [shl24_ok hn]
    simp only [ok_bind, u8_toNat_ofNat]
    have : n % 256 + n / 256 % 256 * 256 + n / 65536 % 256 * 65536 + n / 16777216 * 16777216 = n := by
      omega
    rw [this]; rfl
  | false =>
    simp only [u32b, Bool.false_eq_true, if_false]
    rw [shl24_ok hn]
    simp only [ok_bind, u8_toNat_ofNat]
    have : n / 16777216 * 16777216 + n / 65536 % 256 * 65536 + n / 256 % 256 * 256 + n % 256 = n := by
      omega
    rw [this]; rfl

theorem read_u32_err {le : Bool} {n : Nat} (h : At f p (u32b le n)) (h0 : 2147483648 ≤ n)
    (hn : n < 4294967296) : read_u32 f le p = .error .signedOverflow := by
  have hf := fread_at h (by cases le <;> simp [u32b])
  rw [u32b_length] at hf
  unfold read_u32
  rw [hf]
  cases le with
  | true =>
    simp only [u32b, if_true]
    rw [shl24_err h0 hn]; rfl
  | false =>
    simp only [u32b, Bool.false_eq_true, if_false]
    rw [shl24_err h0 hn]; rfl

/-! ### The directory -/

theorem fseekCur_nonneg (p : Nat) (k : Nat) : fseekCur p (k : Int) = p + k := by
  unfold fseekCur
  rw [if_neg (by omega)]
  omega

theorem entry_length {le : Bool} {e : IfdEntry} (he : e.value.length = 4) :
    (e.bytes le).length = 12 := by
  simp [IfdEntry.bytes, u16b_length, u32b_length, he]

/-- One directory entry before the orientation. -/
theorem ifd_entry {le : Bool} {e : IfdEntry} (h : At f p (e.bytes le)) (hv : e.Valid) :
    read_u16 f le p = (e.tag, p + 2) ∧ read_u16 f le (p + 2) = (e.type, p + 4) ∧
      read_u32 f le (p + 4) = .ok (e.count, p + 8) := by
  unfold IfdEntry.bytes at h
  have h1 := h.left.left.left
  have h2 := h.left.left.right
  have h3 := h.left.right
  rw [u16b_length] at h2
  rw [List.length_append, u16b_length, u16b_length] at h3
  exact ⟨read_u16_at h1 hv.tag, read_u16_at h2 hv.type, read_u32_at h3 hv.count⟩

theorem ifdLoop_ok {le : Bool} {v type count : Nat} (hv : v < 65536) (ht : type < 65536)
    (hc : count < 2147483648) (before : List IfdEntry) {n i : Nat} (hn : before.length < n)
    (hb : ∀ e ∈ before, e.Valid ∧ e.tag ≠ 0x0112)
    (h : At f p (before.flatMap (IfdEntry.bytes le) ++
      (u16b le 0x0112 ++ u16b le type ++ u32b le count ++ u16b le v))) :
    Ok (forBreak n i (p, (none : Option Nat)) fun _ s => do
      let (tag, p) := read_u16 f le s.1
      let (_, p) := read_u16 f le p
      let (_, p) ← read_u32 f le p
      if tag = 0x0112 then
        let (orientation, p) := read_u16 f le p
        pure ((p, some orientation), true)
      else pure ((fseekCur p 4, none), false)) (fun r => r.2 = some v) := by
  induction before generalizing p n i with
  | nil =>
    obtain ⟨m, rfl⟩ : ∃ m, n = m + 1 := ⟨n - 1, by simp at hn; omega⟩
    simp only [List.flatMap_nil, List.nil_append] at h
    have h1 := h.left.left.left
    have h2 := h.left.left.right
    have h3 := h.left.right
    have h4 := h.right
    rw [u16b_length] at h2
    rw [List.length_append, u16b_length, u16b_length] at h3
    rw [List.length_append, List.length_append, u16b_length, u16b_length, u32b_length] at h4
    unfold forBreak
    simp only
    rw [read_u16_at h1 (by omega)]
    simp only
    rw [read_u16_at h2 ht]
    simp only
    rw [read_u32_at h3 hc]
    simp only [ok_bind, if_true]
    rw [read_u16_at h4 hv]
    exact Ok.pure rfl
  | cons e before ih =>
    obtain ⟨m, rfl⟩ : ∃ m, n = m + 1 := ⟨n - 1, by simp at hn; omega⟩
    obtain ⟨hev, het⟩ := hb e List.mem_cons_self
    rw [List.flatMap_cons, List.append_assoc] at h
    obtain ⟨e1, e2, e3⟩ := ifd_entry h.left hev
    have hr := h.right
    rw [entry_length hev.value] at hr
    unfold forBreak
    simp only
    rw [e1]
    simp only
    rw [e2]
    simp only
    rw [e3]
    simp only [ok_bind, het, if_false, pure_bind', Bool.false_eq_true]
    have e4 : fseekCur (p + 8) 4 = p + 12 := fseekCur_nonneg (p + 8) 4
    rw [e4]
    exact ih (by simp at hn; omega) (fun x hx => hb x (List.mem_cons_of_mem _ hx)) hr

theorem tiffPart_ok {le : Bool} {t : List UInt8} {v : Nat} (h : f.drop p = t)
    (ht : TiffWithOrientation le t v) : tiffPart f p = .ok (some v) := by
  obtain ⟨off, n, before, type, count, h1, h2, h3, h4, h5, h6, h7, h8, h9⟩ := ht.spec
  have a1 : At f p (tiffHeader le off) := by rw [At, h]; exact h1
  have a2 : At f (p + off) (ifdBytes le n before type count v) := by
    rw [At, ← List.drop_drop, h]; exact h3
  unfold tiffHeader at a1
  have b1 := a1.left.left
  have b2 := a1.left.right
  have b3 := a1.right
  have hl : (if le then [0x49, 0x49] else [0x4D, 0x4D] : List UInt8).length = 2 := by
    cases le <;> rfl
  rw [hl] at b2
  rw [List.length_append, hl, u16b_length] at b3
  have hf := fread_at b1 (by cases le <;> simp)
  rw [hl] at hf
  unfold ifdBytes at a2
  rw [List.append_assoc] at a2
  have c1 := a2.left
  have c2 := a2.right
  rw [u16b_length] at c2
  have hloop := ifdLoop_ok (i := 0) h9 h7 h8 before h4 h6 c2
  obtain ⟨r, hr, hrv⟩ := hloop
  have d1 := read_u16_at b2 (by omega)
  have d2 := read_u32_at b3 h2
  have d3 := read_u16_at c1 h5
  unfold tiffPart
  rw [hf]
  cases le with
  | true =>
    simp only [if_true, decide_true, Bool.and_self, Bool.not_true, Bool.false_and,
      Bool.false_eq_true, if_false]
    rw [d1]
    simp only [ne_eq, not_true_eq_false, if_false]
    rw [d2]
    simp only [ok_bind]
    rw [d3]
    simp only
    unfold ifdLoop
    rw [hr]
    simp only [ok_bind, hrv]
    rfl
  | false =>
    have e0 : decide ((0x4D : UInt8) = 0x49) = false := by decide
    simp only [e0, Bool.false_eq_true, if_false, decide_true, Bool.and_self, Bool.not_true,
      Bool.and_false]
    rw [d1]
    simp only [ne_eq, not_true_eq_false, if_false]
    rw [d2]
    simp only [ok_bind]
    rw [d3]
    simp only
    unfold ifdLoop
    rw [hr]
    simp only [ok_bind, hrv]
    rfl

/-! ### Segments -/

theorem exifMagic_eq : exifMagic = exifId := rfl

theorem not_magic {payload : List UInt8} (h : At f p (payload ++ [0xFF]))
    (hp : ¬ exifId <+: payload) : ¬ At f p exifId := by
  intro hx
  have hmem : (0xFF : UInt8) ∉ exifId := by decide
  rcases List.prefix_or_prefix_of_prefix hx h with h' | h'
  · rcases List.prefix_concat_iff.1 h' with h'' | h''
    · exact hmem (by rw [h'']; simp)
    · exact hp h''
  · exact hmem (h'.subset (by simp))

theorem seg_length (s : Seg) : s.bytes.length = s.payload.length + 4 := by
  simp [Seg.bytes, u16b_length]; omega

/-- A plain segment is skipped, unless it is a short APP1 segment at the end of the file. -/
theorem seg_step {s : Seg} (hs : s.Plain) (h : At f p (s.bytes ++ [0xFF])) (o : Option Nat) :
    exifStep f (p, o) = .ok ((p + s.bytes.length, none), false) ∨
      (f.length < p + 10 ∧ ∃ q, exifStep f (p, o) = .ok ((q, none), true)) := by
  have hlen := hs.len
  unfold Seg.bytes at h
  rw [List.append_assoc, List.append_assoc] at h
  have h1 : At f p [0xFF, s.marker] := h.left
  have h2 : At f (p + 2) (u16b false (s.payload.length + 2)) := h.right.left
  have h3 : At f (p + 2 + 2) (s.payload ++ [0xFF]) := by
    have := h.right.right
    rwa [u16b_length] at this
  have f1 : fread f p 2 = (some [0xFF, s.marker], p + 2) := fread_at h1 (by simp)
  unfold exifStep
  simp only
  rw [f1]
  simp only [ne_eq, not_true_eq_false, if_false]
  rw [if_neg (not_or.2 ⟨hs.notEOI, hs.notSOS⟩), read_u16_at h2 (by omega)]
  simp only
  by_cases he : s.marker = 0xE1
  · rw [if_pos he]
    unfold fread
    by_cases hf : p + 2 + 2 + 6 ≤ f.length
    · left
      rw [if_pos hf]
      simp only
      have hne : ¬ (f.drop (p + 2 + 2)).take 6 = exifMagic := by
        intro hx
        apply not_magic h3 (hs.notExif he)
        have := List.take_prefix 6 (f.drop (p + 2 + 2))
        rw [hx] at this
        exact this
      rw [if_pos hne, seg_length]
      have : fseekCur (p + 2 + 2 + 6) (((s.payload.length + 2 : Nat) : Int) - 2 - 6)
          = p + (s.payload.length + 4) := by
        unfold fseekCur
        split <;> omega
      rw [this]; rfl
    · right
      rw [if_neg hf]
      exact ⟨by omega, _, rfl⟩
  · left
    rw [if_neg he, seg_length]
    have : fseekCur (p + 2 + 2) (((s.payload.length + 2 : Nat) : Int) - 2)
        = p + (s.payload.length + 4) := by
      unfold fseekCur
      split <;> omega
    rw [this]; rfl

theorem whileFuel_cont {σ : Type} {fuel : Nat} {s s' : σ} {step : σ → CM (σ × Bool)}
    (h : step s = .ok (s', false)) : whileFuel (fuel + 1) s step = whileFuel fuel s' step := by
  conv => lhs; unfold whileFuel
  rw [h]
  rfl

theorem whileFuel_stop {σ : Type} {fuel : Nat} {s s' : σ} {step : σ → CM (σ × Bool)}
    (h : step s = .ok (s', true)) : whileFuel (fuel + 1) s step = .ok s' := by
  unfold whileFuel
  rw [h]
  rfl

/-- The loop skips plain segments. -/
theorem segs_loop (segs : List Seg) (hs : ∀ s ∈ segs, s.Plain) (rest : List UInt8)
    (h : At f p (segs.flatMap Seg.bytes ++ 0xFF :: rest)) (fuel : Nat) :
    whileFuel (segs.length + fuel) (p, none) (exifStep f)
        = whileFuel fuel (p + (segs.flatMap Seg.bytes).length, none) (exifStep f) ∨
      (f.length < p + (segs.flatMap Seg.bytes).length + 6 ∧
        ∃ q, whileFuel (segs.length + fuel) (p, none) (exifStep f) = .ok (q, none)) := by
  induction segs generalizing p with
  | nil => left; simp
  | cons s segs ih =>
    rw [List.flatMap_cons, List.append_assoc] at h
    have hr := h.right
    have hff : At f p (s.bytes ++ [0xFF]) := by
      cases segs with
      | nil =>
        simp only [List.flatMap_nil, List.nil_append] at h
        rw [show s.bytes ++ 0xFF :: rest = (s.bytes ++ [0xFF]) ++ rest by simp] at h
        exact h.left
      | cons t ts =>
        have : s.bytes ++ ((t :: ts).flatMap Seg.bytes ++ 0xFF :: rest)
            = (s.bytes ++ [0xFF]) ++ ((t.marker :: (u16b false (t.payload.length + 2) ++ t.payload
              ++ ts.flatMap Seg.bytes)) ++ 0xFF :: rest) := by
          simp [Seg.bytes]
        rw [this] at h
        exact h.left
    have hlen : (s :: segs).length + fuel = segs.length + fuel + 1 := by
      rw [List.length_cons]; omega
    rw [hlen, List.flatMap_cons, List.length_append]
    rcases seg_step (hs s List.mem_cons_self) hff none with h1 | ⟨h1, q, h2⟩
    · rw [whileFuel_cont h1, ← Nat.add_assoc]
      exact ih (fun x hx => hs x (List.mem_cons_of_mem _ hx)) hr
    · right
      have := seg_length s
      exact ⟨by omega, q, whileFuel_stop h2⟩

theorem segs_length (segs : List Seg) : segs.length ≤ (segs.flatMap Seg.bytes).length := by
  induction segs with
  | nil => simp
  | cons s segs ih =>
    rw [List.flatMap_cons, List.length_append, List.length_cons, seg_length]
    omega

theorem exifFuel_head {fuel : Nat} {r : List UInt8} :
    exifFuel fuel (some (0xFF :: 0xD8 :: r)) = (do
      let r ← whileFuel fuel (2, none) (exifStep (0xFF :: 0xD8 :: r))
      match r.2 with
      | some v => pure (v : Int)
      | none => pure 1) := by
  have : fread (0xFF :: 0xD8 :: r) 0 2 = (some [0xFF, 0xD8], 2) :=
    fread_at (f := 0xFF :: 0xD8 :: r) (p := 0) (bs := [0xFF, 0xD8]) ⟨r, rfl⟩ (by simp)
  unfold exifFuel
  simp only
  rw [this]
  simp
  rfl

/-! ### Progress -/

theorem fread_pos (f : List UInt8) (p k : Nat) :
    (fread f p k).2 ≤ max f.length p ∧ p ≤ (fread f p k).2 := by
  unfold fread
  split <;> simp <;> omega

theorem fread_some {k q : Nat} {bs : List UInt8} (h : fread f p k = (some bs, q)) :
    p + k ≤ f.length ∧ q = p + k ∧ bs = (f.drop p).take k := by
  unfold fread at h
  split at h
  · cases h; exact ⟨by assumption, rfl, rfl⟩
  · cases h

/-- A loop whose rounds never diverge and whose continuing rounds decrease a measure does not
run out of fuel. -/
theorem whileFuel_no_diverge {σ : Type} {fuel : Nat} {s : σ} {step : σ → CM (σ × Bool)}
    (I : σ → Prop) (μ : σ → Nat) (h0 : I s) (hf : μ s < fuel)
    (hstep : ∀ s, I s → step s ≠ .error .diverge ∧
      ∀ s', step s = .ok (s', false) → I s' ∧ μ s' < μ s) :
    whileFuel fuel s step ≠ .error .diverge := by
  induction fuel generalizing s with
  | zero => omega
  | succ n ih =>
    obtain ⟨h1, h2⟩ := hstep s h0
    unfold whileFuel
    cases hs : step s with
    | error e => intro h; apply h1; rw [hs]; cases h; rfl
    | ok r =>
      obtain ⟨s', b⟩ := r
      cases b with
      | true => intro h; cases h
      | false =>
        obtain ⟨h3, h4⟩ := h2 s' hs
        exact ih h3 (by omega)

theorem read_u32_no_diverge (f : List UInt8) (le : Bool) (p : Nat) :
    read_u32 f le p ≠ .error .diverge := by
  have hs : ∀ b, shl24 b ≠ .error .diverge := by
    intro b; unfold shl24; split <;> simp
  have hb : ∀ (b : UInt8) (g : Nat → Nat × Nat),
      ((shl24 b >>= fun t => pure (g t)) : CM (Nat × Nat)) ≠ .error .diverge := by
    intro b g
    cases h : shl24 b with
    | error e => intro h'; apply hs b; rw [h]; cases h'; rfl
    | ok r => simp [pure, Except.pure]
  unfold read_u32
  split
  · split
    · exact hb _ _
    · exact hb _ _
  · simp [pure, Except.pure]

theorem forBreak_no_diverge {σ : Type} {n i : Nat} {s : σ} {body : Nat → σ → CM (σ × Bool)}
    (h : ∀ i s, body i s ≠ .error .diverge) : forBreak n i s body ≠ .error .diverge := by
  induction n generalizing i s with
  | zero => simp [forBreak]
  | succ n ih =>
    unfold forBreak
    cases hb : body i s with
    | error e => intro h'; apply h i s; rw [hb]; cases h'; rfl
    | ok r =>
      obtain ⟨s', b⟩ := r
      cases b with
      | true => simp
      | false => exact ih

theorem tiffPart_no_diverge (f : List UInt8) (p : Nat) : tiffPart f p ≠ .error .diverge := by
  have hl : ∀ le n p, ifdLoop f le n p ≠ .error .diverge := by
    intro le n p
    unfold ifdLoop
    apply forBreak_no_diverge
    intro i s
    simp only
    cases h : read_u32 f le (read_u16 f le (read_u16 f le s.1).2).2 with
    | error e => intro h'; apply read_u32_no_diverge f le (read_u16 f le (read_u16 f le s.1).2).2; rw [h]; cases h'; rfl
    | ok r =>
      simp only [ok_bind]
      split <;> simp [pure, Except.pure]
  unfold tiffPart
  split
  · dsimp only
    split
    · simp [pure, Except.pure]
    · split
      · simp [pure, Except.pure]
      · rename_i h0 h1 q _ _ _
        generalize (decide (h0 = 0x49) && decide (h1 = 0x49)) = le
        generalize (read_u16 f le q).2 = q'
        cases h : read_u32 f le q' with
        | error e => intro h'; apply read_u32_no_diverge f le q'; rw [h]; cases h'; rfl
        | ok r =>
          simp only [ok_bind]
          generalize (read_u16 f le (p + r.1)) = x
          cases h2 : ifdLoop f le x.1 x.2 with
          | error e => intro h'; apply hl le x.1 x.2; rw [h2]; cases h'; rfl
          | ok r => simp [pure, Except.pure]
  · simp [pure, Except.pure]

theorem read_u16_snd (f : List UInt8) (le : Bool) (p : Nat) :
    (read_u16 f le p).2 = (fread f p 2).2 := by
  unfold read_u16
  generalize fread f p 2 = x
  obtain ⟨o, q⟩ := x
  match o with
  | none => rfl
  | some [] => rfl
  | some [_] => rfl
  | some [a, b] => cases le <;> rfl
  | some (_ :: _ :: _ :: _) => rfl

theorem read_u16_fail {le : Bool} (h : f.length < p + 2) : read_u16 f le p = (0, max p f.length) := by
  unfold read_u16 fread
  rw [if_neg (by omega)]

/-- A round that goes on moves forward, unless the file ends in a marker. -/
theorem exifStep_progress (hf : ¬ EndsInMarker f) (s : Nat × Option Nat) :
    exifStep f s ≠ .error .diverge ∧
      ∀ s', exifStep f s = .ok (s', false) → s.1 < s'.1 ∧ s.1 + 2 ≤ f.length := by
  unfold exifStep
  split
  · rename_i m0 m1 q hq
    obtain ⟨hle, rfl, hbs⟩ := fread_some hq
    by_cases h0 : m0 ≠ 0xFF
    · rw [if_pos h0]
      exact ⟨by simp [pure, Except.pure], fun s' h => by cases h⟩
    rw [if_neg h0]
    by_cases h1 : m1 = 0xD9 ∨ m1 = 0xDA
    · rw [if_pos h1]
      exact ⟨by simp [pure, Except.pure], fun s' h => by cases h⟩
    rw [if_neg h1]
    dsimp only
    by_cases he : m1 = 0xE1
    · rw [if_pos he]
      split
      · rename_i hdr q' hq'
        obtain ⟨hle', rfl, _⟩ := fread_some hq'
        split
        · refine ⟨by simp [pure, Except.pure], fun s' h => ?_⟩
          cases h
          refine ⟨?_, hle⟩
          have := (fread_pos f (s.1 + 2) 2).2
          have h2 := read_u16_snd f false (s.1 + 2)
          have h3 : f.length ≥ s.1 + 2 + 2 ∨ f.length < s.1 + 2 + 2 := by omega
          unfold fseekCur
          rcases h3 with h3 | h3
          · have : (read_u16 f false (s.1 + 2)).2 = s.1 + 4 := by
              rw [h2]; unfold fread; rw [if_pos h3]
            simp only [this]
            split <;> omega
          · rw [read_u16_fail h3] at hle'
            simp only at hle'
            omega
        · refine ⟨?_, fun s' h => ?_⟩
          · intro h
            rename_i hne
            generalize hx : tiffPart f _ = x at h
            cases x with
            | error e => cases h; exact tiffPart_no_diverge f _ hx
            | ok r => cases h
          · generalize tiffPart f _ = x at h
            cases x with
            | error e => cases h
            | ok r => cases h
      · exact ⟨by simp [pure, Except.pure], fun s' h => by cases h⟩
    · rw [if_neg he]
      refine ⟨by simp [pure, Except.pure], fun s' h => ?_⟩
      cases h
      refine ⟨?_, hle⟩
      have h2 := read_u16_snd f false (s.1 + 2)
      have h3 : f.length ≥ s.1 + 2 + 2 ∨ f.length < s.1 + 2 + 2 := by omega
      rcases h3 with h3 | h3
      · have : (read_u16 f false (s.1 + 2)).2 = s.1 + 4 := by
          rw [h2]; unfold fread; rw [if_pos h3]
        unfold fseekCur
        simp only [this]
        split <;> omega
      · by_cases h4 : f.length = s.1 + 2
        · exfalso
          apply hf
          refine ⟨m1, ⟨f.take s.1, ?_⟩, fun e => h1 (Or.inl e), fun e => h1 (Or.inr e), he⟩
          have : (f.drop s.1).take 2 = f.drop s.1 := List.take_of_length_le (by simp; omega)
          rw [this] at hbs
          have h0' : m0 = 0xFF := by simpa using h0
          rw [← h0', hbs, List.take_append_drop]
        · rw [read_u16_fail h3]
          unfold fseekCur
          simp only
          split <;> omega
  · exact ⟨by simp [pure, Except.pure], fun s' h => by cases h⟩

/-! ### Possible outcomes -/

/-- The computation returns a value in `Q`, diverges or overflows. -/
def Out {α : Type} (m : CM α) (Q : α → Prop) : Prop :=
  (∃ r, m = .ok r ∧ Q r) ∨ m = .error .diverge ∨ m = .error .signedOverflow

theorem Out.ok {α : Type} {r : α} {Q : α → Prop} (h : Q r) : Out (.ok r : CM α) Q :=
  Or.inl ⟨r, rfl, h⟩

theorem Out.bind {α β : Type} {m : CM α} {g : α → CM β} {P : α → Prop} {Q : β → Prop}
    (hm : Out m P) (hg : ∀ r, P r → Out (g r) Q) : Out (m >>= g) Q := by
  rcases hm with ⟨r, rfl, hr⟩ | rfl | rfl
  · exact hg r hr
  · exact Or.inr (Or.inl rfl)
  · exact Or.inr (Or.inr rfl)

theorem Out.forBreak {σ : Type} {n i : Nat} {s : σ} {body : Nat → σ → CM (σ × Bool)}
    {Q : σ → Prop} (h0 : Q s) (h : ∀ i s, Out (body i s) (fun r => Q r.1)) :
    Out (forBreak n i s body) Q := by
  induction n generalizing i s with
  | zero => exact Out.ok h0
  | succ n ih =>
    refine Out.bind (h i s) ?_
    rintro ⟨s', b⟩ hr
    cases b with
    | true => exact Out.ok hr
    | false => exact ih hr

theorem Out.whileFuel {σ : Type} {fuel : Nat} {s : σ} {step : σ → CM (σ × Bool)} {Q : σ → Prop}
    (h : ∀ s, Out (step s) (fun r => Q r.1)) : Out (whileFuel fuel s step) Q := by
  induction fuel generalizing s with
  | zero => exact Or.inr (Or.inl rfl)
  | succ n ih =>
    refine Out.bind (h s) ?_
    rintro ⟨s', b⟩ hr
    cases b with
    | true => exact Out.ok hr
    | false => exact ih

theorem read_u16_lt (f : List UInt8) (le : Bool) (p : Nat) : (read_u16 f le p).1 < 65536 := by
  unfold read_u16
  generalize fread f p 2 = x
  obtain ⟨o, q⟩ := x
  match o with
  | none => simp
  | some [] => simp
  | some [_] => simp
  | some [a, b] =>
    have := a.toNat_lt
    have := b.toNat_lt
    cases le
    · simp only [Bool.false_eq_true, if_false]; omega
    · simp only [if_true]; omega
  | some (_ :: _ :: _ :: _) => simp

theorem read_u32_out (f : List UInt8) (le : Bool) (p : Nat) :
    Out (read_u32 f le p) (fun _ => True) := by
  have hb : ∀ (b : UInt8) (g : Nat → Nat × Nat),
      Out ((shl24 b >>= fun t => pure (g t)) : CM (Nat × Nat)) (fun _ => True) := by
    intro b g
    refine Out.bind (P := fun _ => True) ?_ (fun r _ => Out.ok trivial)
    unfold shl24
    split
    · exact Out.ok trivial
    · exact Or.inr (Or.inr rfl)
  unfold read_u32
  split
  · split
    · exact hb _ _
    · exact hb _ _
  · exact Out.ok trivial

/-- A returned orientation is a 16-bit number. -/
def Is16 (o : Option Nat) : Prop := ∀ v, o = some v → v < 65536

theorem tiffPart_out (f : List UInt8) (p : Nat) : Out (tiffPart f p) Is16 := by
  have hnone : Is16 none := fun v h => by cases h
  unfold tiffPart
  split
  · dsimp only
    split
    · exact Out.ok hnone
    · split
      · exact Out.ok hnone
      · refine Out.bind (read_u32_out f _ _) fun r _ => ?_
        refine Out.bind (P := fun s => Is16 s.2) ?_ (fun s hs => Out.ok hs)
        unfold ifdLoop
        refine Out.forBreak hnone ?_
        intro i s
        dsimp only
        refine Out.bind (read_u32_out f _ _) fun r _ => ?_
        split
        · refine Out.ok ?_
          intro v hv
          cases hv
          exact read_u16_lt _ _ _
        · exact Out.ok hnone
  · exact Out.ok hnone

theorem exifStep_out (f : List UInt8) (s : Nat × Option Nat) :
    Out (exifStep f s) (fun r => Is16 r.1.2) := by
  have hnone : Is16 none := fun v h => by cases h
  unfold exifStep
  split
  · split
    · exact Out.ok hnone
    · split
      · exact Out.ok hnone
      · dsimp only
        split
        · split
          · split
            · exact Out.ok hnone
            · exact Out.bind (tiffPart_out f _) fun r hr => Out.ok hr
          · exact Out.ok hnone
        · exact Out.ok hnone
  · exact Out.ok hnone

theorem exif_out (file : Option (List UInt8)) (fuel : Nat) :
    Out (exifFuel fuel file) (fun r => 0 ≤ r ∧ r < 65536) := by
  unfold exifFuel
  split
  · exact Out.ok (by omega)
  · split
    · split
      · exact Out.ok (by omega)
      · refine Out.bind (Out.whileFuel (Q := fun s => Is16 s.2) (exifStep_out _)) ?_
        intro r hr
        split
        · rename_i v hv
          have := hr v hv
          exact Out.ok (by omega)
        · exact Out.ok (by omega)
    · exact Out.ok (by omega)

end FlatCV
