/-
The PNG decoder: the loop over the chunks.
-/
import Verif.Lemmas.PngChunk
import Verif.Props.Inflate

namespace FlatCV
open Model Png

/-! ### IEND -/

theorem Coll.input {t : PState} {D : List UInt8} (C : Coll t D) : asInput (t.idata.take t.ioff) = .ok D := by
  have : t.idata.take t.ioff = D.map some := by
    apply List.ext_getElem?
    intro q
    rw [List.getElem?_take, List.getElem?_map, C.off]
    by_cases hq : q < D.length
    · rw [if_pos hq, C.data q hq, List.getElem?_eq_getElem hq, List.getD_eq_getElem _ _ hq]
      rfl
    · rw [if_neg hq, List.getElem?_eq_none (by omega)]
      rfl
  rw [this]
  exact asInput_map_some D

/-- The first estimate of the size of the data. -/
theorem guess_ok {t : PState} (H : HdrOk t) :
    u32 (u32 (t.x * t.depth + 7) / 8 * t.y * t.n + t.y) = (t.x * t.depth + 7) / 8 * t.y * t.n + t.y ∧ 0 < (t.x * t.depth + 7) / 8 * t.y * t.n + t.y ∧
      (t.x * t.depth + 7) / 8 * t.y * t.n + t.y < 4294967296 := by
  have h1 := H.x0
  have h2 := H.x1
  have h3 := H.y0
  have h4 := H.y1
  have hd : (t.x * t.depth + 7) / 8 ≤ t.x * 2 ∧ t.x * t.depth + 7 < 4294967296 := by
    rcases depth_cases H.depth with e | e | e | e | e <;> rw [e] <;> omega
  have h5 : (t.x * t.depth + 7) / 8 * t.y * t.n ≤ t.x * 2 * t.y * t.n := Nat.mul_le_mul_right _ (Nat.mul_le_mul_right _ hd.1)
  have h6 : t.x * 2 * t.y * t.n = t.x * t.y * t.n * 2 := by ring
  have h7 := H.area
  rw [u32_eq hd.2, u32_eq (by omega)]
  exact ⟨rfl, by omega, by omega⟩

theorem raw_cells {c : Cells UInt8} {l : List UInt8} {k : Nat} (h : c.take k = l.map some) (q : Nat) (hq : q < l.length) : c[q]? = some (some (l.getD q 0)) := by
  have h1 := congrArg (fun x => x[q]?) h
  simp only [List.getElem?_take, List.getElem?_map] at h1
  rw [List.getElem?_eq_getElem hq] at h1
  split_ifs at h1
  · rw [h1, List.getD_eq_getElem _ _ hq]
    rfl
  · cases h1

theorem iend_safe {m : PngMem} {t : PState} {D : List UInt8} (H : t.first = false → HdrOk t) (C : Coll t D) :
    Outc (fun e => e = .uninitRead ∧ t.first = false ∧ t.color = 3) (chunkIEND m t) fun r => ∀ d, r = some d → t.first = false ∧ ∃ S, Shown t S d := by
  rw [chunkIEND]
  cases hf : t.first with
  | true =>
    rw [if_pos rfl]
    exact Outc.pure fun d e => (by cases e)
  | false =>
    have H := H hf
    rw [if_neg (by simp)]
    by_cases h1 : t.idata = []
    · rw [if_pos h1]
      exact Outc.pure fun d e => (by cases e)
    rw [if_neg h1]
    obtain ⟨g1, g2, g3⟩ := guess_ok H
    simp only [g1]
    by_cases h2 : 2147483648 ≤ (t.x * t.depth + 7) / 8 * t.y * t.n + t.y ∨ m.zlib = false
    · rw [if_pos h2]
      exact Outc.pure fun d e => (by cases e)
    rw [if_neg h2, C.input, ok_bind]
    obtain ⟨⟨ok, z⟩, hz⟩ := Props.inflate_safe D g2 g3 m.grows (!t.iphone)
    rw [hz, ok_bind]
    simp only
    cases ok with
    | false => exact Outc.pure fun d e => (by cases e)
    | true =>
      rw [if_pos rfl]
      obtain ⟨o, ho, hzo⟩ := Props.inflate_initialised g2 g3 hz
      have hu : u32 z.zout ≤ o.length := by rw [← hzo]; exact Nat.mod_le _ _
      have hl : u32 z.zout = (o.take (u32 z.zout)).length := by rw [List.length_take]; omega
      rw [hl]
      refine ((finish_ok (m := m) (raw := z.out) H fun k hk => ?_).monoE fun e he => ⟨he.1, trivial, he.2.1⟩).mono fun r hr d hd => ?_
      · rw [raw_cells ho k (by omega), List.getD_eq_getElem?_getD, List.getD_eq_getElem?_getD, List.getElem?_take, if_pos (by omega)]
      · obtain ⟨S, _, hS⟩ := hr.1 d hd
        exact ⟨trivial, S, hS⟩

theorem iend_good {m : PngMem} {t : PState} {D raw : List UInt8} {S : Samples} (hf : t.first = false) (H : HdrOk t) (C : Coll t D) (hD : D ≠ []) (hi : t.iphone = false) (M : MemGood m)
    (F : SizeFits t) (hg : (t.x * t.depth + 7) / 8 * t.y * t.n + t.y < 2147483648) (hz : zlibDecode D = some raw) (hr : raw.length < 2147483648)
    (hS : lread t.depth t.n t.x t.y t.interlace raw = some S) (hp : t.color = 3 → ∀ i j, i < t.x → j < t.y → S i j 0 < t.palLen) :
    Ok (chunkIEND m t) fun r => ∃ d, r = some d ∧ Shown t S d := by
  rw [chunkIEND, hf, if_neg (by simp)]
  have h1 : t.idata ≠ [] := by
    intro e
    have h2 := C.room
    have h3 := C.off
    rw [e, List.length_nil] at h2
    exact hD (List.eq_nil_of_length_eq_zero (by omega))
  rw [if_neg h1]
  obtain ⟨g1, g2, g3⟩ := guess_ok H
  simp only [g1]
  rw [if_neg (by rw [M.zlib]; simp; omega), C.input, ok_bind, hi]
  obtain ⟨z, e1, e2, e3⟩ := Props.inflate_complete (grows := m.grows) g2 g3 hz (Or.inr ⟨M.grows, by omega⟩)
  rw [Bool.not_false, e1, ok_bind]
  simp only [if_true]
  have hu : u32 z.zout = raw.length := by rw [e3]; exact u32_eq (by omega)
  rw [hu]
  refine ((finish_ok (m := m) (raw := z.out) H (raw_cells e2)).ok ?_).mono ?_
  · rintro e ⟨_, hc, S', hS', i, j, hi', hj, hle⟩
    rw [hS] at hS'
    obtain rfl := Option.some.inj hS'
    have := hp hc i j hi' hj
    omega
  · rintro r ⟨q1, q2⟩
    cases r with
    | none =>
      have := q2 rfl M F
      rw [hS] at this
      cases this
    | some d =>
      obtain ⟨S', hS', hd⟩ := q1 d rfl
      rw [hS] at hS'
      obtain rfl := Option.some.inj hS'
      exact ⟨d, rfl, hd⟩

/-! ### What holds at each chunk -/

structure PInv (t : PState) : Prop where
  ctx : CtxOk t.s
  palSize : t.pal.length = 1024
  tcSize : t.tc.length = 3
  tc : ∀ c, c < 3 → ∃ v, t.tc[c]? = some (some v)
  tc16Size : t.tc16.length = 3
  fresh : t.first = true → t.palN = 0 ∧ t.palLen = 0 ∧ t.trans = false
  hdr : t.first = false → HdrOk t
  coll : ∃ D, Coll t D

theorem HdrOk.frame {t : PState} (H : HdrOk t) (s : Ctx) (p : Bool) (d : Cells UInt8) (o g : Nat) : HdrOk { t with s := s, iphone := p, idata := d, ioff := o, grown := g } :=
  ⟨H.depth, H.kind, H.x0, H.y0, H.x1, H.y1, H.area, H.pal3, H.pal0, H.palSize, H.palInit, H.palMax, H.trans, H.tc, H.tc16, H.tc16Size⟩

theorem Coll.frame {t t' : PState} {D : List UInt8} (C : Coll t D) (h1 : t'.idata = t.idata) (h2 : t'.ioff = t.ioff) : Coll t' D :=
  ⟨by rw [h2]; exact C.off, by rw [h1, h2]; exact C.room, by rw [h1]; exact C.data, by rw [h2]; exact C.limit, by rw [h1]; exact C.size⟩

theorem PInv.frame {t : PState} (I : PInv t) {s : Ctx} (hs : CtxOk s) (p : Bool) : PInv { t with s := s, iphone := p } :=
  ⟨hs, I.palSize, I.tcSize, I.tc, I.tc16Size, I.fresh, fun h => (I.hdr h).frame s p _ _ _, by
    obtain ⟨D, hD⟩ := I.coll
    exact ⟨D, hD.frame rfl rfl⟩⟩

theorem ihdr_inv {t : PState} {b : List UInt8} {s : Ctx} (I : PInv t) (hf : t.first = true) (hs : CtxOk s) (G : IhdrGood b) : HdrOk (ihdrState t b s) := by
  obtain ⟨e1, e2, e3⟩ := I.fresh hf
  obtain ⟨g1, g2, g3, g4, g5, g6, g7, g8, g9, g10, g11⟩ := G
  have hn : 0 < ihdrN (ihdrColour b) ∧ ((ihdrColour b = 0 ∧ ihdrN (ihdrColour b) = 1) ∨ (ihdrColour b = 2 ∧ ihdrN (ihdrColour b) = 3) ∨ (ihdrColour b = 3 ∧ ihdrN (ihdrColour b) = 1) ∨
      (ihdrColour b = 4 ∧ ihdrN (ihdrColour b) = 2) ∨ (ihdrColour b = 6 ∧ ihdrN (ihdrColour b) = 4)) := by
    rcases g4 with e | e | e | e | e <;> rw [e] <;> decide
  refine ⟨g3, hn.2, g9, g10, g1, g2, ?_, fun h => ⟨?_, g5 h, e3⟩, fun h => ?_, I.palSize, fun q hq => ?_, ?_, fun h => ?_, I.tc, fun h => ?_, I.tc16Size⟩
  · show ihdrX b * ihdrY b * ihdrN (ihdrColour b) ≤ 1073741824
    have hk : ihdrN (ihdrColour b) ≤ (if ihdrColour b = 3 then 4 else ihdrN (ihdrColour b)) := by split_ifs <;> omega
    have hpos : 0 < (if ihdrColour b = 3 then 4 else ihdrN (ihdrColour b)) := by omega
    rw [Nat.le_div_iff_mul_le hpos, Nat.le_div_iff_mul_le g9] at g11
    have h1 := Nat.mul_le_mul_left (ihdrY b) hk
    have h2 := Nat.mul_le_mul_right (ihdrX b) h1
    have h3 : ihdrX b * ihdrY b * ihdrN (ihdrColour b) = ihdrY b * ihdrN (ihdrColour b) * ihdrX b := by ring
    omega
  · left
    show (if ihdrColour b = 3 then 3 else t.palN) = 3
    exact if_pos h
  · show (if ihdrColour b = 3 then 3 else t.palN) = 0
    exact (if_neg h).trans e1
  · have hq : q < t.palLen * 4 := hq
    omega
  · show t.palLen ≤ 256
    omega
  · have h : t.trans = true := h
    rw [e3] at h
    cases h
  · have h : t.trans = true := h
    rw [e3] at h
    cases h

theorem plte_inv {t : PState} {b : List UInt8} {s : Ctx} {pal : Cells UInt8} {k : Nat} (H : HdrOk t) (hk : k ≤ 256) (P : PalSet t.pal pal b k) :
    HdrOk { t with s := s, pal := pal, palLen := k } := by
  refine ⟨H.depth, H.kind, H.x0, H.y0, H.x1, H.y1, H.area, H.pal3, H.pal0, P.len.trans H.palSize, fun q hq => ?_, hk, H.trans, H.tc, H.tc16, H.tc16Size⟩
  have hq : q < k * 4 := hq
  show ∃ b, pal[q]? = some (some b)
  obtain ⟨g1, g2⟩ := P.set (q / 4) (by omega)
  by_cases h3 : q % 4 < 3
  · have := g1 (q % 4) h3
    rw [show q / 4 * 4 + q % 4 = q by omega] at this
    exact ⟨_, this⟩
  · rw [show q / 4 * 4 + 3 = q by omega] at g2
    exact ⟨_, g2⟩

theorem alpha_inv {t : PState} {b : List UInt8} {s : Ctx} {pal : Cells UInt8} {k : Nat} (H : HdrOk t) (hc : t.color = 3) (P : AlphaSet t.pal pal b k) :
    HdrOk { t with s := s, pal := pal, palN := 4 } := by
  refine ⟨H.depth, H.kind, H.x0, H.y0, H.x1, H.y1, H.area, fun h => ⟨Or.inr rfl, (H.pal3 h).2⟩, fun h => absurd hc h, P.len.trans H.palSize, fun q hq => ?_, H.palMax, H.trans, H.tc, H.tc16, H.tc16Size⟩
  show ∃ b, pal[q]? = some (some b)
  by_cases h : ∃ i, i < k ∧ q = i * 4 + 3
  · obtain ⟨i, hi, rfl⟩ := h
    exact ⟨_, P.set i hi⟩
  · rw [P.rest q fun i hi e => h ⟨i, hi, e⟩]
    exact H.palInit q hq

theorem colour_inv {t : PState} {s : Ctx} {tc tc16 : Cells Nat} {v w : Nat → Nat} (H : HdrOk t) (hc : t.color = 0 ∨ t.color = 2) (h3 : t.tc.length = 3)
    (g1 : t.depth = 16 → tc = t.tc ∧ ColourSet t.tc16 tc16 v t.n) (g2 : t.depth ≠ 16 → tc16 = t.tc16 ∧ ColourSet t.tc tc w t.n) :
    HdrOk { t with s := s, tc := tc, tc16 := tc16, trans := true } ∧ tc.length = 3 ∧ tc16.length = 3 ∧ ∀ c, c < 3 → ∃ v, tc[c]? = some (some v) := by
  have key : tc.length = 3 ∧ tc16.length = 3 ∧ (∀ c, c < 3 → ∃ v, tc[c]? = some (some v)) ∧ (t.depth = 16 → ∀ c, c < t.n → ∃ v, tc16[c]? = some (some v)) := by
    by_cases h16 : t.depth = 16
    · obtain ⟨rfl, C⟩ := g1 h16
      exact ⟨h3, C.len.trans H.tc16Size, H.tc, fun _ c hc => ⟨_, C.set c hc⟩⟩
    · obtain ⟨rfl, C⟩ := g2 h16
      refine ⟨C.len.trans h3, H.tc16Size, fun c hc => ?_, fun e => absurd e h16⟩
      by_cases hn : c < t.n
      · exact ⟨_, C.set c hn⟩
      · rw [C.rest c (by omega)]
        exact H.tc c hc
  obtain ⟨k1, k2, k3, k4⟩ := key
  refine ⟨⟨H.depth, H.kind, H.x0, H.y0, H.x1, H.y1, H.area, fun h => ?_, H.pal0, H.palSize, H.palInit, H.palMax, fun _ => hc, k3, fun _ => k4, k2⟩, k1, k2, k3⟩
  have h : t.color = 3 := h
  omega

/-- A chunk that is followed by others. -/
structure MoreOk (t t' : PState) (type : Nat) : Prop where
  inv : PInv t'
  less : (Ctx.rem t'.s).length ≤ (Ctx.rem t.s).length
  nonzero : type ≠ 0
  same : t.first = false → t'.first = false ∧ t'.x = t.x ∧ t'.y = t.y ∧ t'.depth = t.depth ∧ t'.color = t.color
  header : t.first = true → (type = pngType 'C' 'g' 'B' 'I' ∧ t'.first = true) ∨
    (type = pngType 'I' 'H' 'D' 'R' ∧ t'.first = false ∧ t'.x = ihdrX (Ctx.rem t.s) ∧ t'.y = ihdrY (Ctx.rem t.s) ∧ t'.depth = ihdrDepth (Ctx.rem t.s) ∧ t'.color = ihdrColour (Ctx.rem t.s))

theorem after_ok {t : PState} (I : PInv t) : PInv { t with s := (get32be t.s).2 } ∧ Next t.s (get32be t.s).2 ((Ctx.rem t.s).drop 4) :=
  ⟨I.frame (get32_next I.ctx).2.ok t.iphone, (get32_next I.ctx).2⟩

/-- A chunk gives a state from which the CRC is read. -/
theorem MoreOk.after {t t' : PState} {type : Nat} (h : MoreOk t t' type) : MoreOk t { t' with s := (get32be t'.s).2 } type := by
  obtain ⟨h1, h2⟩ := after_ok h.inv
  refine ⟨h1, ?_, h.nonzero, h.same, h.header⟩
  show (Ctx.rem (get32be t'.s).2).length ≤ _
  rw [h2.rem, List.length_drop]
  have := h.less
  omega

/-- What a chunk does. -/
def BodyPost (t : PState) (type : Nat) (r : ChunkEnd) : Prop :=
  match r with
  | .more t' => MoreOk t t' type
  | .fail => True
  | .done d => t.first = false ∧ HdrOk t ∧ ∃ S, Shown t S d

theorem chunk_body_ok {m : PngMem} {t : PState} {type len : Nat} (I : PInv t) :
    Outc (fun e => e = .uninitRead ∧ t.first = false ∧ t.color = 3) (chunkBody m type len t) (BodyPost t type) := by
  have opt : ∀ r : Option PState, (∀ t', r = some t' → MoreOk t t' type) → BodyPost t type (afterChunk r) := by
    intro r hr
    cases r with
    | none => trivial
    | some t' => exact (hr t' rfl).after
  obtain ⟨D, hD⟩ := I.coll
  rw [chunkBody]
  split_ifs with h1 h2 h3 h4 h5 h6 h7 h8
  · refine Outc.pure (opt _ fun t' e => ?_)
    obtain ⟨l, k1, k2, _⟩ := skip_next I.ctx len
    obtain rfl := Option.some.inj e
    exact ⟨I.frame k1.ok true, by rw [k1.rem]; exact k2, by rw [h1]; decide, fun h => ⟨h, rfl, rfl, rfl, rfl⟩, fun h => Or.inl ⟨h1, h⟩⟩
  · refine Outc.pure (opt _ fun t' e => ?_)
    obtain ⟨hf, hl, hG, s, hs, rfl⟩ := (ihdr_ok I.ctx).1 t' e
    refine ⟨⟨hs.ok, I.palSize, I.tcSize, I.tc, I.tc16Size, fun h => (by cases h), fun _ => ihdr_inv I hf hs.ok hG, D, hD.frame rfl rfl⟩, ?_, by rw [h2]; decide, fun h => ?_, fun _ => Or.inr ⟨h2, rfl, rfl, rfl, rfl, rfl⟩⟩
    · show (Ctx.rem s).length ≤ _
      rw [hs.rem, List.length_drop]
      omega
    · rw [hf] at h
      cases h
  · refine Outc.bind (Outc.of_ok (plte_ok (len := len) I.ctx I.palSize)) fun r hr => Outc.pure (opt _ fun t' e => ?_)
    obtain ⟨hf, hl, _, s, pal, hs, hP, rfl⟩ := hr.1 t' e
    refine ⟨⟨hs.ok, hP.len.trans I.palSize, I.tcSize, I.tc, I.tc16Size, fun h => ?_, fun _ => plte_inv (I.hdr hf) (by omega) hP, D, hD.frame rfl rfl⟩, ?_, by rw [h3]; decide,
      fun h => ⟨h, rfl, rfl, rfl, rfl⟩, fun h => ?_⟩
    · have h : t.first = true := h
      rw [hf] at h
      cases h
    · show (Ctx.rem s).length ≤ _
      rw [hs.rem, List.length_drop]
      omega
    · rw [hf] at h
      cases h
  · refine Outc.bind (Outc.of_ok (trns_ok (len := len) I.ctx I.hdr I.tcSize)) fun r hr => Outc.pure (opt _ fun t' e => ?_)
    obtain ⟨hf, _, hr⟩ := hr.1 t' e
    have nf : ∀ {p : Prop}, t.first = true → p := fun h => by rw [hf] at h; cases h
    rcases hr with ⟨hc, _, _, s, pal, hs, hP, rfl⟩ | ⟨hc, _, s, tc, tc16, hs, rfl, q1, q2⟩
    · refine ⟨⟨hs.ok, hP.len.trans I.palSize, I.tcSize, I.tc, I.tc16Size, fun h => nf h, fun _ => alpha_inv (I.hdr hf) hc hP, D, hD.frame rfl rfl⟩, ?_, by rw [h4]; decide,
        fun h => ⟨h, rfl, rfl, rfl, rfl⟩, fun h => nf h⟩
      show (Ctx.rem s).length ≤ _
      rw [hs.rem, List.length_drop]
      omega
    · obtain ⟨k1, k2, k3, k4⟩ := colour_inv (s := s) (I.hdr hf) hc I.tcSize q1 q2
      refine ⟨⟨hs.ok, I.palSize, k2, k4, k3, fun h => nf h, fun _ => k1, D, hD.frame rfl rfl⟩, ?_, by rw [h4]; decide,
        fun h => ⟨h, rfl, rfl, rfl, rfl⟩, fun h => nf h⟩
      show (Ctx.rem s).length ≤ _
      rw [hs.rem, List.length_drop]
      omega
  · refine Outc.bind (Outc.of_ok (idat_ok (m := m) (len := len) I.ctx hD)) fun r hr => Outc.pure (opt _ fun t' e => ?_)
    obtain ⟨hf, hl, s, d, o, g, hs, rfl, C⟩ := hr.1 t' e
    have nf : ∀ {p : Prop}, t.first = true → p := fun h => by rw [hf] at h; cases h
    refine ⟨⟨hs.ok, I.palSize, I.tcSize, I.tc, I.tc16Size, fun h => nf h, fun _ => (I.hdr hf).frame s t.iphone d o g, _, C⟩, ?_, by rw [h5]; decide,
        fun h => ⟨h, rfl, rfl, rfl, rfl⟩, fun h => nf h⟩
    show (Ctx.rem s).length ≤ _
    rw [hs.rem, List.length_drop]
    omega
  · refine Outc.bind (iend_safe I.hdr hD) fun r hr => ?_
    cases r with
    | none => exact Outc.pure trivial
    | some d =>
      obtain ⟨hf, S, hS⟩ := hr d rfl
      exact Outc.pure ⟨hf, I.hdr hf, S, hS⟩
  · exact Outc.pure trivial
  · exact Outc.pure trivial
  · refine Outc.pure (opt _ fun t' e => ?_)
    obtain ⟨l, k1, k2, _⟩ := skip_next I.ctx len
    obtain rfl := Option.some.inj e
    refine ⟨I.frame k1.ok t.iphone, by rw [k1.rem]; exact k2, ?_, fun h => ⟨h, rfl, rfl, rfl, rfl⟩, fun h => absurd h h7⟩
    rintro rfl
    exact h8 (by norm_num)

/-- A chunk in a file of which something is left. -/
theorem step_ok {m : PngMem} {t : PState} (I : PInv t) :
    Outc (fun e => e = .uninitRead ∧ t.first = false ∧ t.color = 3) (chunkStep m t) fun r =>
      match r with
      | .more t' => PInv t' ∧ (Ctx.rem t'.s).length < (Ctx.rem t.s).length ∧
          (t.first = false → t'.first = false ∧ t'.x = t.x ∧ t'.y = t.y ∧ t'.depth = t.depth ∧ t'.color = t.color) ∧
          (t.first = true → (num32 ((Ctx.rem t.s).drop 4) = pngType 'C' 'g' 'B' 'I' ∧ t'.first = true) ∨
            (t'.first = false ∧ t'.x = ihdrX ((Ctx.rem t.s).drop 8) ∧ t'.y = ihdrY ((Ctx.rem t.s).drop 8) ∧ t'.depth = ihdrDepth ((Ctx.rem t.s).drop 8) ∧
              t'.color = ihdrColour ((Ctx.rem t.s).drop 8)))
      | .fail => True
      | .done d => ∃ S t', t'.first = false ∧ t'.x = t.x ∧ t'.y = t.y ∧ t'.depth = t.depth ∧ t'.color = t.color ∧ t.first = false ∧ HdrOk t' ∧ Shown t' S d := by
  rw [chunkStep]
  obtain ⟨a1, a2⟩ := get32_next I.ctx
  obtain ⟨b1, b2⟩ := get32_next a2.ok
  rw [a2.rem] at b1 b2
  rw [List.drop_drop] at b2
  have hN := a2.trans b2
  simp only
  refine ((chunk_body_ok (m := m) (type := (get32be (get32be t.s).2).1) (len := (get32be t.s).1) (I.frame (s := (get32be (get32be t.s).2).2) hN.ok t.iphone)).monoE fun e he => he).mono ?_
  intro r hr
  cases r with
  | fail => trivial
  | done d =>
    obtain ⟨hf, H, S, hS⟩ := hr
    exact ⟨S, _, hf, rfl, rfl, rfl, rfl, hf, H, hS⟩
  | more t' =>
    have hr : MoreOk _ t' _ := hr
    have e : Ctx.rem (PState.s { t with s := (get32be (get32be t.s).2).2, iphone := t.iphone }) = (Ctx.rem t.s).drop 8 := hN.rem
    refine ⟨hr.inv, ?_, hr.same, fun h => ?_⟩
    · have h1 := hr.less
      rw [e, List.length_drop] at h1
      by_contra hc
      have h0 : Ctx.rem t.s = [] := List.eq_nil_of_length_eq_zero (by omega)
      apply hr.nonzero
      rw [b1, h0]
      rfl
    · have := hr.header h
      rw [e] at this
      rw [b1] at this
      rcases this with g | g
      · exact Or.inl g
      · exact Or.inr g.2

/-- The loop; `P` is known about the header. -/
theorem parse_ok {m : PngMem} (P : Nat → Nat → Nat → Nat → Prop) (f : Nat) (t : PState) (I : PInv t) (hf : (Ctx.rem t.s).length < f)
    (h1 : t.first = true → ∀ x y d c, P x y d c) (h0 : t.first = false → P t.x t.y t.depth t.color) :
    Outc (fun e => e = .uninitRead ∧ ∃ x y d, P x y d 3) (parseChunks m f t) fun r => ∀ d, r = some d → ∃ S t', HdrOk t' ∧ Shown t' S d ∧ P t'.x t'.y t'.depth t'.color := by
  induction f generalizing t with
  | zero => omega
  | succ f ih =>
    rw [parseChunks]
    refine Outc.bind ((step_ok (m := m) I).monoE ?_) ?_
    · rintro e ⟨he, hff, hc⟩
      have := h0 hff
      rw [hc] at this
      exact ⟨he, _, _, _, this⟩
    · intro r hr
      cases r with
      | fail => exact Outc.pure fun d e => (by cases e)
      | done d =>
        obtain ⟨S, t', _, e1, e2, e3, e4, hff, H, hS⟩ := hr
        refine Outc.pure fun d' e => ?_
        cases e
        refine ⟨S, t', H, hS, ?_⟩
        rw [e1, e2, e3, e4]
        exact h0 hff
      | more t' =>
        obtain ⟨q1, q2, q3, q4⟩ := hr
        refine ih t' q1 (by omega) (fun h => h1 ?_) (fun h => ?_)
        · by_contra hc
          have hc : t.first = false := by simpa using hc
          have := (q3 hc).1
          rw [h] at this
          cases this
        · cases hff : t.first with
          | true => exact h1 hff _ _ _ _
          | false =>
            obtain ⟨_, e1, e2, e3, e4⟩ := q3 hff
            rw [e1, e2, e3, e4]
            exact h0 hff

theorem start_inv {s : Ctx} (h : CtxOk s) : PInv (PState.start s) where
  ctx := h
  palSize := List.length_replicate
  tcSize := rfl
  tc c hc := ⟨0, by
    have : c = 0 ∨ c = 1 ∨ c = 2 := by omega
    rcases this with rfl | rfl | rfl <;> rfl⟩
  tc16Size := rfl
  fresh _ := ⟨rfl, rfl, rfl⟩
  hdr h := by cases h
  coll := ⟨[], ⟨rfl, le_rfl, fun q hq => absurd hq (by simp), by show 0 < 2147483648; norm_num, Or.inl rfl⟩⟩

end FlatCV
