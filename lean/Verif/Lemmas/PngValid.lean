/-
The PNG decoder on valid files: the chunks one after the other.
-/
import Verif.Lemmas.PngParse

namespace FlatCV
open Model Png

/-! ### The parts of a chunk -/

theorem getD_append4 (a b c d : UInt8) (l : List UInt8) :
    ([a, b, c, d] ++ l).getD 0 0 = a ∧ ([a, b, c, d] ++ l).getD 1 0 = b ∧ (([a, b, c, d] ++ l).drop 2).getD 0 0 = c ∧ (([a, b, c, d] ++ l).drop 2).getD 1 0 = d :=
  ⟨rfl, rfl, rfl, rfl⟩

theorem num32_four (a b c d : UInt8) (l : List UInt8) : num32 ([a, b, c, d] ++ l) = a.toNat * 16777216 + b.toNat * 65536 + c.toNat * 256 + d.toNat := by
  obtain ⟨h1, h2, h3, h4⟩ := getD_append4 a b c d l
  rw [num32, num16, num16, h1, h2, h3, h4]
  ring

theorem num32_be32 {n : Nat} (h : n < 4294967296) (l : List UInt8) : num32 (be32 n ++ l) = n := by
  rw [be32, num32_four]
  simp only [UInt8.toNat_ofNat']
  omega

theorem be32_length (n : Nat) : (be32 n).length = 4 := rfl

theorem four_bytes {ty : List UInt8} (h : ty.length = 4) : ∃ a b c d, ty = [a, b, c, d] := by
  match ty, h with
  | [a, b, c, d], _ => exact ⟨a, b, c, d, rfl⟩

theorem drop_app {a : Nat} {l : List UInt8} (h : l.length = a) (r : List UInt8) : (l ++ r).drop a = r := by
  rw [← h]
  exact List.drop_left

theorem chunk_step {m : PngMem} {t : PState} {ty data rest : List UInt8} (h : CtxOk t.s) (hty : ty.length = 4) (hd : data.length < 4294967296)
    (hr : Ctx.rem t.s = pngChunk ty data ++ rest) :
    ∃ s, Next t.s s (data ++ (be32 (crc32 (ty ++ data)) ++ rest)) ∧ chunkStep m t = chunkBody m (num32 ty) data.length { t with s := s } := by
  obtain ⟨a1, a2⟩ := get32_next h
  obtain ⟨b1, b2⟩ := get32_next a2.ok
  rw [a2.rem] at b1 b2
  have e : Ctx.rem t.s = be32 data.length ++ (ty ++ (data ++ (be32 (crc32 (ty ++ data)) ++ rest))) := by
    rw [hr, pngChunk]
    simp only [List.append_assoc]
  rw [e] at a1 b1 b2
  rw [num32_be32 hd] at a1
  rw [drop_app (be32_length _)] at b1 b2
  rw [drop_app hty] at b2
  refine ⟨_, a2.trans b2, ?_⟩
  rw [chunkStep]
  simp only
  rw [a1, b1]
  obtain ⟨a, b, c, d, rfl⟩ := four_bytes hty
  rw [num32_four, ← List.append_nil [a, b, c, d], num32_four]

theorem after_crc {t : PState} {x : Nat} {rest : List UInt8} (h : CtxOk t.s) (hr : Ctx.rem t.s = be32 x ++ rest) : Next t.s (get32be t.s).2 rest := by
  have := (get32_next h).2
  rwa [hr, drop_app (be32_length _)] at this

/-! ### The rest of the file -/

/-- The decoder, started anywhere before the end with enough fuel, ends with `Q`. -/
def Parses (m : PngMem) (t : PState) (Q : Option Model.Decoded → Prop) : Prop := ∀ f, (Ctx.rem t.s).length < f → Ok (parseChunks m f t) Q

theorem Parses.step {m : PngMem} {t t' : PState} {Q : Option Model.Decoded → Prop} (I : PInv t) (h : chunkStep m t = .ok (.more t')) (hQ : PInv t' → Parses m t' Q) : Parses m t Q := by
  intro f hf
  cases f with
  | zero => omega
  | succ f =>
    have := step_ok (m := m) I
    rw [h] at this
    rw [parseChunks, h]
    obtain ⟨q1, q2, _⟩ := this
    exact hQ q1 f (by omega)

theorem Parses.last {m : PngMem} {t : PState} {Q : Option Model.Decoded → Prop} (h : Ok (chunkStep m t) fun r => ∃ d, r = .done d ∧ Q (some d)) : Parses m t Q := by
  intro f hf
  cases f with
  | zero => omega
  | succ f =>
    rw [parseChunks]
    refine Ok.bind h ?_
    rintro r ⟨d, rfl, hd⟩
    exact Ok.pure hd

/-! ### The state -/

/-- The value of the transparent colour as it is kept. -/
def keyOf (depth : Nat) (l : List UInt8) (c : Nat) : Nat :=
  if depth = 16 then transValue l c else transValue l c % 256 * depth_scale_table.getD depth 0 % 256

/-- The state after the header, a palette, a transparent colour and data `D`; `rest` is left. -/
structure PngAt (hd : Header) (pl tr : Option (List UInt8)) (D rest : List UInt8) (t : PState) : Prop where
  inv : PInv t
  first : t.first = false
  iphone : t.iphone = false
  x : t.x = hd.w
  y : t.y = hd.h
  n : t.n = hd.samples
  depth : t.depth = hd.depth
  color : t.color = hd.colour
  interlace : t.interlace = hd.interlace
  palLen : t.palLen = (pl.getD []).length / 3
  pal : ∀ i, i < (pl.getD []).length / 3 → (∀ c, c < 3 → t.pal[i * 4 + c]? = some (some ((pl.getD []).getD (3 * i + c) 0))) ∧
    t.pal[i * 4 + 3]? = some (some (if hd.colour = 3 then (tr.getD []).getD i 255 else 255))
  palN : t.palN = if hd.colour = 3 then (if tr = none then 3 else 4) else 0
  trans : t.trans = (decide (hd.colour ≠ 3) && tr.isSome)
  key : ∀ l, tr = some l → hd.colour ≠ 3 → ∀ c, c < t.n → FlatCV.key t c = keyOf t.depth l c
  coll : Coll t D
  rem : Ctx.rem t.s = rest

theorem PngAt.frame {hd : Header} {pl tr : Option (List UInt8)} {D rest rest' : List UInt8} {t : PState} (A : PngAt hd pl tr D rest t) {s : Ctx} (hs : Next t.s s rest') :
    PngAt hd pl tr D rest' { t with s := s } :=
  ⟨A.inv.frame hs.ok t.iphone, A.first, A.iphone, A.x, A.y, A.n, A.depth, A.color, A.interlace, A.palLen, A.pal, A.palN, A.trans, A.key, A.coll.frame rfl rfl, hs.rem⟩

theorem PngAt.crc {hd : Header} {pl tr : Option (List UInt8)} {D rest : List UInt8} {t : PState} {x : Nat} (A : PngAt hd pl tr D (be32 x ++ rest) t) :
    PngAt hd pl tr D rest { t with s := (get32be t.s).2 } := A.frame (after_crc A.inv.ctx A.rem)

theorem type_num {a b c d : UInt8} {v : Nat} (h : num32 [a, b, c, d] = v) : a.toNat * 16777216 + b.toNat * 65536 + c.toNat * 256 + d.toNat = v := by
  have := num32_four a b c d []
  rw [List.append_nil] at this
  omega

theorem ancillary_type {ty : List UInt8} (h4 : ty.length = 4) (h5 : (ty.getD 0 0).toNat.testBit 5 = true) (ht : ty ≠ tag "tRNS") :
    num32 ty / 536870912 % 2 = 1 ∧ num32 ty ≠ pngType 'C' 'g' 'B' 'I' ∧ num32 ty ≠ pngType 'I' 'H' 'D' 'R' ∧ num32 ty ≠ pngType 'P' 'L' 'T' 'E' ∧
      num32 ty ≠ pngType 't' 'R' 'N' 'S' ∧ num32 ty ≠ pngType 'I' 'D' 'A' 'T' ∧ num32 ty ≠ pngType 'I' 'E' 'N' 'D' := by
  obtain ⟨a, b, c, d, rfl⟩ := four_bytes h4
  have e := type_num (a := a) (b := b) (c := c) (d := d) rfl
  rw [← e]
  have h1 := b.toNat_lt
  have h2 := c.toNat_lt
  have h3 := d.toNat_lt
  have h5 : a.toNat.testBit 5 = true := h5
  rw [Nat.testBit_eq_decide_div_mod_eq, decide_eq_true_eq] at h5
  have v1 : pngType 'C' 'g' 'B' 'I' = 1130840649 := by decide
  have v2 : pngType 'I' 'H' 'D' 'R' = 1229472850 := by decide
  have v3 : pngType 'P' 'L' 'T' 'E' = 1347179589 := by decide
  have v4 : pngType 't' 'R' 'N' 'S' = 1951551059 := by decide
  have v5 : pngType 'I' 'D' 'A' 'T' = 1229209940 := by decide
  have v6 : pngType 'I' 'E' 'N' 'D' = 1229278788 := by decide
  rw [v1, v2, v3, v4, v5, v6]
  refine ⟨by omega, by omega, by omega, by omega, fun e' => ht ?_, by omega, by omega⟩
  have q1 : a = 116 := UInt8.toNat_inj.mp (by show a.toNat = 116; omega)
  have q2 : b = 82 := UInt8.toNat_inj.mp (by show b.toNat = 82; omega)
  have q3 : c = 78 := UInt8.toNat_inj.mp (by show c.toNat = 78; omega)
  have q4 : d = 83 := UInt8.toNat_inj.mp (by show d.toNat = 83; omega)
  rw [q1, q2, q3, q4]
  decide

theorem PngAt.ancillary {m : PngMem} {hd : Header} {pl tr : Option (List UInt8)} {D rest : List UInt8} {t : PState} {c : List UInt8 × List UInt8} (hc : Ancillary c)
    (A : PngAt hd pl tr D (pngChunk c.1 c.2 ++ rest) t) : ∃ t', chunkStep m t = .ok (.more t') ∧ PngAt hd pl tr D rest t' ∧ t'.idata = t.idata := by
  obtain ⟨h1, h2, h3, h4⟩ := hc
  obtain ⟨s, hs, e⟩ := chunk_step (m := m) A.inv.ctx h1 (by omega) A.rem
  obtain ⟨k0, k1, k2, k3, k4, k5, k6⟩ := ancillary_type h1 h2 h3
  rw [e, chunkBody, if_neg k1, if_neg k2, if_neg k3, if_neg k4, if_neg k5, if_neg k6, if_neg (by rw [A.first]; simp), if_neg (by omega)]
  obtain ⟨l, j1, _, j3⟩ := skip_next hs.ok c.2.length
  have := j3 h4
  rw [hs.rem, List.drop_left] at this
  subst this
  exact ⟨_, rfl, (A.frame (hs.trans j1)).crc, rfl⟩

theorem PngAt.ancillaries {m : PngMem} {Q : Option Model.Decoded → Prop} {hd : Header} {pl tr : Option (List UInt8)} {D rest : List UInt8} {l : List (List UInt8 × List UInt8)}
    (hl : ∀ c ∈ l, Ancillary c) (P : (d : Cells UInt8) → Prop) (h : ∀ t, PngAt hd pl tr D rest t → P t.idata → Parses m t Q) {t : PState} (A : PngAt hd pl tr D (chunks l ++ rest) t) (hP : P t.idata) :
    Parses m t Q := by
  induction l generalizing t with
  | nil => exact h t A hP
  | cons c l ih =>
    rw [chunks, List.flatMap_cons, List.append_assoc] at A
    obtain ⟨t', h1, h2, h3⟩ := A.ancillary (m := m) (hl c (by simp))
    exact Parses.step A.inv h1 fun _ => ih (fun c hc => hl c (by simp [hc])) h2 (by rw [h3]; exact hP)

theorem tag4 : num32 (tag "IHDR") = pngType 'I' 'H' 'D' 'R' ∧ num32 (tag "PLTE") = pngType 'P' 'L' 'T' 'E' ∧ num32 (tag "tRNS") = pngType 't' 'R' 'N' 'S' ∧
    num32 (tag "IDAT") = pngType 'I' 'D' 'A' 'T' ∧ num32 (tag "IEND") = pngType 'I' 'E' 'N' 'D' := by decide

theorem getD_left {l r : List UInt8} {q : Nat} (h : q < l.length) : (l ++ r).getD q 0 = l.getD q 0 := by
  rw [List.getD_eq_getElem?_getD, List.getElem?_append_left h, List.getD_eq_getElem?_getD]

/-! ### PLTE -/

theorem PngAt.plte {m : PngMem} {hd : Header} {l D rest : List UInt8} {t : PState} (h3 : l.length % 3 = 0) (h7 : l.length ≤ 768)
    (A : PngAt hd none none D (pngChunk (tag "PLTE") l ++ rest) t) : ∃ t', chunkStep m t = .ok (.more t') ∧ PngAt hd (some l) none D rest t' ∧ t'.idata = t.idata := by
  obtain ⟨s, hs, e⟩ := chunk_step (m := m) A.inv.ctx rfl (by omega) A.rem
  have A1 := A.frame hs
  obtain ⟨r, h1, h2, h4⟩ := plte_ok (t := { t with s := s }) (len := l.length) A1.inv.ctx A1.inv.palSize
  have hr := h4 A.first h7 h3
  cases r with
  | none => exact absurd rfl hr
  | some t' =>
    rw [e, tag4.2.1, chunkBody, if_neg (by decide), if_neg (by decide), if_pos rfl, h1]
    obtain ⟨_, _, _, s', pal, j1, j2, rfl⟩ := h2 t' rfl
    rw [A1.rem, List.drop_left] at j1
    rw [A1.rem] at j2
    refine ⟨_, rfl, ?_, rfl⟩
    refine PngAt.crc ⟨?_, A.first, A.iphone, A.x, A.y, A.n, A.depth, A.color, A.interlace, rfl, fun i hi => ?_, A.palN, A.trans, fun l e => (by cases e), A.coll.frame rfl rfl, j1.rem⟩
    · refine ⟨j1.ok, j2.len.trans A.inv.palSize, A.inv.tcSize, A.inv.tc, A.inv.tc16Size, fun h => ?_, fun _ => plte_inv (A1.inv.hdr A1.first) (by omega) j2, D, A.coll.frame rfl rfl⟩
      have h : t.first = true := h
      rw [A.first] at h
      cases h
    · have hi : i < l.length / 3 := hi
      obtain ⟨q1, q2⟩ := j2.set i hi
      refine ⟨fun c hc => ?_, ?_⟩
      · have := q1 c hc
        rw [getD_left (by omega)] at this
        exact this
      · have e : (if hd.colour = 3 then ((none : Option (List UInt8)).getD []).getD i 255 else 255) = 255 := by split_ifs <;> rfl
        rw [e]
        exact q2

/-! ### tRNS -/

theorem trans_num {l r : List UInt8} {k : Nat} (h : 2 * k + 1 < l.length) : num16 ((l ++ r).drop (2 * k)) = transValue l k := by
  rw [num16, drop_getD, drop_getD, transValue, Nat.add_zero, getD_left (by omega), getD_left (by omega)]

theorem PngAt.trns {m : PngMem} {p : Parts} {l rest : List UInt8} {t : PState} (hp : p.PlteValid) (ht : p.TrnsValid) (hl : p.trns = some l)
    (A : PngAt p.hd p.plte none [] (pngChunk (tag "tRNS") l ++ rest) t) (hi : t.idata = []) :
    ∃ t', chunkStep m t = .ok (.more t') ∧ PngAt p.hd p.plte p.trns [] rest t' ∧ t'.idata = t.idata := by
  have hlen : l.length ≤ 768 := by
    rcases ht l hl with ⟨_, h, _⟩ | ⟨_, h, _⟩ | ⟨_, h⟩
    · omega
    · omega
    · cases hpl : p.plte with
      | none =>
        rw [hpl] at h
        have h : 3 * l.length ≤ 0 := h
        omega
      | some pl =>
        rw [hpl] at h
        have h : 3 * l.length ≤ pl.length := h
        have := (hp.1 pl hpl).2.2.1
        omega
  obtain ⟨s, hs, e⟩ := chunk_step (m := m) A.inv.ctx rfl (by omega) A.rem
  have A1 := A.frame hs
  have H := A1.inv.hdr A1.first
  obtain ⟨r, h1, h2, h4⟩ := trns_ok (t := { t with s := s }) (len := l.length) A1.inv.ctx A1.inv.hdr A1.inv.tcSize
  have hn : ∀ {c : Nat}, p.hd.colour = c → t.n = (⟨0, 0, 0, c, 0⟩ : Header).samples := by
    rintro c rfl
    rw [A.n]
    rfl
  have cond : (t.color = 3 ∧ l.length ≤ t.palLen ∧ 0 < t.palLen) ∨ ((t.color = 0 ∨ t.color = 2) ∧ l.length = t.n * 2) := by
    rcases ht l hl with ⟨h, h', _⟩ | ⟨h, h', _⟩ | ⟨h, h'⟩
    · right
      rw [A.color, hn h]
      exact ⟨Or.inl h, h'⟩
    · right
      rw [A.color, hn h]
      exact ⟨Or.inr h, h'⟩
    · left
      rw [A.color, A.palLen]
      cases hpl : p.plte with
      | none => exact absurd hpl (hp.2 h)
      | some pl =>
        rw [hpl] at h'
        have h' : 3 * l.length ≤ pl.length := h'
        obtain ⟨q1, q2, _⟩ := hp.1 pl hpl
        refine ⟨h, ?_, ?_⟩
        · show l.length ≤ pl.length / 3
          omega
        · show 0 < pl.length / 3
          omega
  have hr := h4 A.first hi cond
  cases r with
  | none => exact absurd rfl hr
  | some t' =>
    rw [e, tag4.2.2.1, chunkBody, if_neg (by decide), if_neg (by decide), if_neg (by decide), if_pos rfl, h1]
    have nf : ∀ {q : Prop}, t.first = true → q := fun h => by rw [A.first] at h; cases h
    obtain ⟨_, _, h2 | h2⟩ := h2 t' rfl
    · obtain ⟨hc, hle, _, s', pal, j1, j2, rfl⟩ := h2
      have hc : t.color = 3 := hc
      have hc3 : p.hd.colour = 3 := by rw [← A.color]; exact hc
      have hle : l.length ≤ t.palLen := hle
      rw [A1.rem, List.drop_left] at j1
      rw [A1.rem] at j2
      refine ⟨_, rfl, ?_, rfl⟩
      refine PngAt.crc ⟨?_, A.first, A.iphone, A.x, A.y, A.n, A.depth, A.color, A.interlace, A.palLen, fun i hi => ?_, ?_, ?_, fun l _ h => absurd hc3 h, A.coll.frame rfl rfl, j1.rem⟩
      · exact ⟨j1.ok, j2.len.trans A.inv.palSize, A.inv.tcSize, A.inv.tc, A.inv.tc16Size, fun h => nf h, fun _ => alpha_inv (A1.inv.hdr A1.first) hc j2, [], A.coll.frame rfl rfl⟩
      · obtain ⟨q1, q2⟩ := A.pal i hi
        refine ⟨fun c hc => ?_, ?_⟩
        · rw [← q1 c hc]
          exact j2.rest _ fun i' _ => by omega
        · rw [if_pos hc3] at q2 ⊢
          rw [hl]
          show pal[i * 4 + 3]? = some (some (l.getD i 255))
          by_cases hil : i < l.length
          · rw [j2.set i hil, getD_left hil, List.getD_eq_getElem _ _ hil, List.getD_eq_getElem _ _ hil]
          · rw [List.getD_eq_getElem?_getD, List.getElem?_eq_none (show l.length ≤ i by omega)]
            rw [j2.rest (i * 4 + 3) fun i' hi' => by omega]
            exact q2
      · rw [if_pos hc3, if_neg (by rw [hl]; simp)]
      · show t.trans = _
        rw [A.trans, hl]
        simp [hc3]
    · obtain ⟨hc, hle, s', tc, tc16, j1, rfl, g1, g2⟩ := h2
      have hc : t.color = 0 ∨ t.color = 2 := hc
      have hc3 : p.hd.colour ≠ 3 := by rw [← A.color]; omega
      have hle : l.length = t.n * 2 := hle
      rw [A1.rem, List.drop_left] at j1
      rw [A1.rem] at g1 g2
      obtain ⟨k1, k2, k3, k4⟩ := colour_inv (s := s') (A.inv.hdr A.first) hc A.inv.tcSize g1 g2
      refine ⟨_, rfl, ?_, rfl⟩
      refine PngAt.crc ⟨?_, A.first, A.iphone, A.x, A.y, A.n, A.depth, A.color, A.interlace, A.palLen, fun i hi => ?_, ?_, ?_, fun l' e _ c hc => ?_, A.coll.frame rfl rfl, j1.rem⟩
      · exact ⟨j1.ok, A.inv.palSize, k2, k4, k3, fun h => nf h, fun _ => k1, [], A.coll.frame rfl rfl⟩
      · obtain ⟨q1, q2⟩ := A.pal i hi
        refine ⟨q1, ?_⟩
        rw [if_neg hc3] at q2 ⊢
        exact q2
      · show t.palN = _
        rw [A.palN, if_neg hc3, if_neg hc3]
      · show true = _
        rw [hl]
        simp [hc3]
      · rw [hl] at e
        obtain rfl := Option.some.inj e
        have hc : c < t.n := hc
        apply keyPix_eq
        show (if t.depth = 16 then tc16 else tc)[c]? = some (some (keyOf t.depth l c))
        rw [keyOf]
        by_cases h16 : t.depth = 16
        · rw [if_pos h16, if_pos h16, (g1 h16).2.set c hc, trans_num (by omega)]
        · rw [if_neg h16, if_neg h16, (g2 h16).2.set c hc, trans_num (by omega)]

/-! ### IDAT -/

theorem PngAt.idat {m : PngMem} {hd : Header} {pl tr : Option (List UInt8)} {l D rest : List UInt8} {t : PState} (M : MemGood m) (hl : l.length ≤ 1073741824) (hD : D.length + l.length < 2147483648)
    (hp : hd.colour = 3 → 3 ≤ (pl.getD []).length) (A : PngAt hd pl tr D (pngChunk (tag "IDAT") l ++ rest) t) :
    ∃ t', chunkStep m t = .ok (.more t') ∧ PngAt hd pl tr (D ++ l) rest t' := by
  obtain ⟨s, hs, e⟩ := chunk_step (m := m) A.inv.ctx rfl (by omega) A.rem
  have A1 := A.frame hs
  obtain ⟨r, h1, h2, h4⟩ := idat_ok (m := m) (t := { t with s := s }) (len := l.length) A1.inv.ctx A1.coll
  have hr := h4 A.first ?_ hl hD ?_ M.idata
  · cases r with
    | none => exact absurd rfl hr
    | some t' =>
      rw [e, tag4.2.2.2.1, chunkBody, if_neg (by decide), if_neg (by decide), if_neg (by decide), if_neg (by decide), if_pos rfl, h1]
      obtain ⟨_, _, s', d, o, g, j1, rfl, C⟩ := h2 t' rfl
      rw [A1.rem, List.drop_left] at j1
      rw [A1.rem, List.take_left] at C
      have nf : ∀ {q : Prop}, t.first = true → q := fun h => by rw [A.first] at h; cases h
      refine ⟨_, rfl, ?_⟩
      refine PngAt.crc ⟨?_, A.first, A.iphone, A.x, A.y, A.n, A.depth, A.color, A.interlace, A.palLen, A.pal, A.palN, A.trans, A.key, C, j1.rem⟩
      exact ⟨j1.ok, A.inv.palSize, A.inv.tcSize, A.inv.tc, A.inv.tc16Size, fun h => nf h, fun _ => (A.inv.hdr A.first).frame s' t.iphone d o g, _, C⟩
  · intro hn
    show t.palLen ≠ 0
    rw [A.palLen]
    by_cases h3 : hd.colour = 3
    · have := hp h3
      omega
    · have hn : t.palN ≠ 0 := hn
      rw [A.palN, if_neg h3] at hn
      exact absurd rfl hn
  · rw [A1.rem, List.length_append]
    omega

theorem PngAt.idats {m : PngMem} {Q : Option Model.Decoded → Prop} {hd : Header} {pl tr : Option (List UInt8)} {D rest : List UInt8} {l : List (List UInt8)} (M : MemGood m)
    (hl : ∀ a ∈ l, a.length ≤ 1073741824) (hD : D.length + l.flatten.length < 2147483648) (hp : hd.colour = 3 → 3 ≤ (pl.getD []).length)
    (h : ∀ t, PngAt hd pl tr (D ++ l.flatten) rest t → Parses m t Q) {t : PState} (A : PngAt hd pl tr D (chunks (l.map fun a => (tag "IDAT", a)) ++ rest) t) : Parses m t Q := by
  induction l generalizing t D with
  | nil =>
    rw [List.flatten_nil, List.append_nil] at h
    exact h t A
  | cons a l ih =>
    rw [List.map_cons, chunks, List.flatMap_cons, List.append_assoc] at A
    rw [List.flatten_cons, List.length_append] at hD
    obtain ⟨t', h1, h2⟩ := A.idat (m := m) M (hl a (by simp)) (by omega) hp
    refine Parses.step A.inv h1 fun _ => ih (fun c hc => hl c (by simp [hc])) (by rw [List.length_append]; omega) ?_ h2
    rw [List.append_assoc, ← List.flatten_cons]
    exact h

/-! ### IEND -/

theorem PngAt.iend {m : PngMem} {hd : Header} {pl tr : Option (List UInt8)} {D raw rest : List UInt8} {S : Samples} {t : PState} (M : MemGood m) (A : PngAt hd pl tr D (pngChunk (tag "IEND") [] ++ rest) t)
    (hD : D ≠ []) (F : SizeFits t) (hg : (t.x * t.depth + 7) / 8 * t.y * t.n + t.y < 2147483648) (hz : zlibDecode D = some raw) (hr : raw.length < 2147483648)
    (hS : lread t.depth t.n t.x t.y t.interlace raw = some S) (hp : t.color = 3 → ∀ i j, i < t.x → j < t.y → S i j 0 < t.palLen) :
    Parses m t fun r => ∃ d t', r = some d ∧ PngAt hd pl tr D (be32 (crc32 (tag "IEND")) ++ rest) t' ∧ Shown t' S d ∧ t'.x = t.x ∧ SizeFits t' := by
  obtain ⟨s, hs, e⟩ := chunk_step (m := m) A.inv.ctx rfl (by decide) A.rem
  have A1 := A.frame hs
  have := iend_good (m := m) (t := { t with s := s }) A1.first (A1.inv.hdr A1.first) A1.coll hD A1.iphone M F hg hz hr hS hp
  apply Parses.last
  rw [e, tag4.2.2.2.2, chunkBody, if_neg (by decide), if_neg (by decide), if_neg (by decide), if_neg (by decide), if_neg (by decide), if_pos rfl]
  refine Ok.bind this ?_
  rintro r ⟨d, rfl, hd'⟩
  exact Ok.pure ⟨d, rfl, d, _, rfl, A1, hd', rfl, F⟩

/-! ### IHDR -/

theorem ihdr_bytes {hd : Header} (V : hd.Valid) (r : List UInt8) :
    ihdrX (hd.bytes ++ r) = hd.w ∧ ihdrY (hd.bytes ++ r) = hd.h ∧ ihdrDepth (hd.bytes ++ r) = hd.depth ∧ ihdrColour (hd.bytes ++ r) = hd.colour ∧
      (hd.bytes ++ r).getD 10 0 = 0 ∧ (hd.bytes ++ r).getD 11 0 = 0 ∧ ihdrInterlace (hd.bytes ++ r) = hd.interlace := by
  have h1 := V.w_lt
  have h2 := V.h_lt
  have h3 := V.depth
  have h4 := V.interlace
  have h5 : hd.depth < 256 ∧ hd.colour < 256 := by
    unfold depthsOf at h3
    split at h3
    all_goals simp only [List.mem_cons, List.not_mem_nil, or_false] at h3
    all_goals omega
  rw [Header.bytes, List.append_assoc, List.append_assoc]
  refine ⟨num32_be32 (by omega) _, ?_, ?_, ?_, rfl, rfl, ?_⟩
  · rw [ihdrY, drop_app (be32_length _)]
    exact num32_be32 (by omega) _
  · show (UInt8.ofNat hd.depth).toNat = _
    rw [UInt8.toNat_ofNat', Nat.mod_eq_of_lt h5.1]
  · show (UInt8.ofNat hd.colour).toNat = _
    rw [UInt8.toNat_ofNat', Nat.mod_eq_of_lt h5.2]
  · show (UInt8.ofNat hd.interlace).toNat = _
    rw [UInt8.toNat_ofNat', Nat.mod_eq_of_lt (by omega)]

theorem depths_cases {c d : Nat} (h : d ∈ depthsOf c) : d ∈ [1, 2, 4, 8, 16] ∧ (c = 0 ∨ c = 2 ∨ c = 3 ∨ c = 4 ∨ c = 6) ∧ (c ≠ 0 → c ≠ 3 → d = 8 ∨ d = 16) ∧ (c = 3 → d ≠ 16) := by
  unfold depthsOf at h
  split at h
  all_goals simp only [List.mem_cons, List.not_mem_nil, or_false] at h ⊢
  · exact ⟨h, Or.inl trivial, by omega, by omega⟩
  · exact ⟨by omega, Or.inr (Or.inl trivial), by omega, by omega⟩
  · exact ⟨by omega, by simp, by omega, by omega⟩
  · exact ⟨by omega, by simp, by omega, by omega⟩
  · exact ⟨by omega, by simp, by omega, by omega⟩

theorem samples_eq {hd : Header} (h : hd.colour = 0 ∨ hd.colour = 2 ∨ hd.colour = 3 ∨ hd.colour = 4 ∨ hd.colour = 6) : ihdrN hd.colour = hd.samples := by
  rw [Header.samples]
  rcases h with h | h | h | h | h <;> rw [h] <;> rfl

theorem PngAt.ihdr {m : PngMem} {hd : Header} {rest : List UInt8} {s0 : Ctx} (V : hd.Valid) (hw : hd.w ≤ 16777216) (hh : hd.h ≤ 16777216) (ha : hd.w * hd.h * (if hd.colour = 3 then 4 else hd.samples) ≤ 1073741824) (hs0 : CtxOk s0)
    (hr : Ctx.rem s0 = pngChunk (tag "IHDR") hd.bytes ++ rest) :
    ∃ t', chunkStep m (PState.start s0) = .ok (.more t') ∧ PngAt hd none none [] rest t' ∧ t'.idata = [] := by
  have I := start_inv hs0
  obtain ⟨s, hs, e⟩ := chunk_step (m := m) (t := PState.start s0) I.ctx (ty := tag "IHDR") (data := hd.bytes) rfl (by show 13 < _; omega) hr
  have I1 := I.frame hs.ok false
  obtain ⟨h2, h4⟩ := ihdr_ok (t := { PState.start s0 with s := s, iphone := false }) (len := hd.bytes.length) I1.ctx
  have er : Ctx.rem (PState.s { PState.start s0 with s := s, iphone := false }) = _ := hs.rem
  rw [er] at h2 h4
  obtain ⟨b1, b2, b3, b4, b5, b6, b7⟩ := ihdr_bytes V (be32 (crc32 (tag "IHDR" ++ hd.bytes)) ++ rest)
  obtain ⟨c1, c2, c3, c4⟩ := depths_cases V.depth
  have hw0 := V.w_pos
  have hh0 := V.h_pos
  have G : IhdrGood (hd.bytes ++ (be32 (crc32 (tag "IHDR" ++ hd.bytes)) ++ rest)) := by
    rw [IhdrGood, b1, b2, b3, b4, b5, b6, b7]
    refine ⟨hw, hh, c1, c2, c4, rfl, rfl, V.interlace, hw0, hh0, ?_⟩
    have hk : 0 < (if hd.colour = 3 then 4 else ihdrN hd.colour) := by
      rcases c2 with h | h | h | h | h <;> rw [h] <;> decide
    rw [Nat.le_div_iff_mul_le hk, Nat.le_div_iff_mul_le hw0]
    rw [samples_eq c2]
    calc _ = hd.w * hd.h * (if hd.colour = 3 then 4 else hd.samples) := by ring
      _ ≤ _ := ha
  have hr := h4 rfl rfl G
  cases ht : chunkIHDR hd.bytes.length { PState.start s0 with s := s, iphone := false } with
  | none => exact absurd ht hr
  | some t' =>
    have ht' : chunkIHDR hd.bytes.length { PState.start s0 with s := s } = some t' := ht
    rw [e, tag4.1, chunkBody, if_neg (by decide), if_pos rfl, ht']
    obtain ⟨hf, _, _, s', j1, rfl⟩ := h2 t' ht
    rw [drop_app (by rfl)] at j1
    refine ⟨_, rfl, ?_, rfl⟩
    refine PngAt.crc ⟨?_, rfl, rfl, b1, b2, ?_, b3, b4, b7, rfl, fun i hi => ?_, ?_, ?_, fun l e => (by cases e), ?_, j1.rem⟩
    · refine ⟨j1.ok, I.palSize, I.tcSize, I.tc, I.tc16Size, fun h => (by cases h), fun _ => ihdr_inv I1 hf j1.ok G, [], ?_⟩
      exact ⟨rfl, le_rfl, fun q hq => absurd hq (by simp), by show 0 < 2147483648; norm_num, Or.inl rfl⟩
    · show ihdrN (ihdrColour _) = _
      rw [b4]
      exact samples_eq c2
    · have hi : i < 0 := hi
      omega
    · show (if ihdrColour _ = 3 then 3 else 0) = _
      rw [b4, if_pos rfl]
    · show false = _
      simp
    · exact ⟨rfl, le_rfl, fun q hq => absurd hq (by simp), by show 0 < 2147483648; norm_num, Or.inl rfl⟩

end FlatCV
