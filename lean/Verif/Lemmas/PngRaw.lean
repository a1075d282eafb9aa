/-
The PNG decoder: an image (or a pass of one) from the decompressed data.
-/
import Verif.Lemmas.PngExpand

namespace FlatCV
open Model Png

theorem Put.congr {t t' : Cells Nat} {d x m : Nat} {g g' : Nat → Nat → Nat} (h : Put t t' d x m g) (hg : ∀ i, i < x → ∀ c, c < m → g i c = g' i c) :
    Put t t' d x m g' := ⟨h.1, fun i hi c hc => by rw [h.2.1 i hi c hc, hg i hi c hc], h.2.2⟩

theorem Put.append {t t1 t2 : Cells Nat} {d d' a b m : Nat} {g1 g2 : Nat → Nat → Nat} (h1 : Put t t1 d a m g1) (h2 : Put t1 t2 d' b m g2) (hd : d' = d + a * m) :
    Put t t2 d (a + b) m fun i => if i < a then g1 i else g2 (i - a) := by
  subst hd
  refine ⟨h2.1.trans h1.1, fun i hi c hc => ?_, fun q hq => ?_⟩
  · by_cases hia : i < a
    · have hm : i * m + m ≤ a * m := by
        have := Nat.mul_le_mul_right m (show i + 1 ≤ a by omega)
        rwa [Nat.add_mul, Nat.one_mul] at this
      rw [h2.2.2 _ (by omega), h1.2.1 i hia c hc]
      simp only [if_pos hia]
    · have := h2.2.1 (i - a) (by omega) c hc
      have e : d + a * m + ((i - a) * m + c) = d + (i * m + c) := by
        rw [Nat.sub_mul]
        have := Nat.mul_le_mul_right m (show a ≤ i by omega)
        omega
      rw [e] at this
      rw [this]
      simp only [if_neg hia]
  · rw [Nat.add_mul] at hq
    rw [h2.2.2 q (by omega), h1.2.2 q (by omega)]

/-- The distance to the corresponding byte on the left. -/
def filterBytes (depth n : Nat) : Nat := if depth < 8 then 1 else n * (if depth = 16 then 2 else 1)

/-- Bytes of a row. -/
def rowBytes (depth n x : Nat) : Nat := (n * x * depth + 7) / 8

theorem depth_cases {depth : Nat} (hd : depth ∈ [1, 2, 4, 8, 16]) : depth = 1 ∨ depth = 2 ∨ depth = 4 ∨ depth = 8 ∨ depth = 16 := by
  simpa only [List.mem_cons, List.not_mem_nil, or_false] using hd

theorem row_width {depth n x : Nat} (hd : depth ∈ [1, 2, 4, 8, 16]) :
    (if depth < 8 then rowBytes depth n x else x) * filterBytes depth n = rowBytes depth n x := by
  rcases depth_cases hd with rfl | rfl | rfl | rfl | rfl
  · rw [if_pos (by omega), filterBytes, if_pos (by omega), Nat.mul_one]
  · rw [if_pos (by omega), filterBytes, if_pos (by omega), Nat.mul_one]
  · rw [if_pos (by omega), filterBytes, if_pos (by omega), Nat.mul_one]
  · rw [if_neg (by omega), filterBytes, if_neg (by omega), if_neg (by omega), rowBytes, Nat.mul_one, Nat.mul_comm x n]
    omega
  · rw [if_neg (by omega), filterBytes, if_neg (by omega), if_pos rfl, rowBytes, ← Nat.mul_assoc, Nat.mul_comm x n]
    omega

theorem filterBytes_le {depth n x : Nat} (hd : depth ∈ [1, 2, 4, 8, 16]) (hn : 0 < n) (hx : 0 < x) :
    0 < filterBytes depth n ∧ filterBytes depth n ≤ rowBytes depth n x := by
  have h1 : n ≤ n * x := Nat.le_mul_of_pos_right _ hx
  rcases depth_cases hd with rfl | rfl | rfl | rfl | rfl <;> simp [filterBytes, rowBytes] <;> omega

/-- A pixel of an image with the given rows. -/
def rowsPixel (depth color n x : Nat) (rows : List (List UInt8)) (p c : Nat) : Nat := rowPixel depth color n (rows.getD (p / x) []) (p % x) c

/-- The rows from `j` on. -/
theorem rows_ok {raw : Cells UInt8} {x n outN depth color : Nat} (hd : depth ∈ [1, 2, 4, 8, 16]) (hn0 : 0 < n) (hx : 0 < x)
    (hn : outN = n ∨ (outN = n + 1 ∧ (n = 1 ∨ n = 3))) (h : Nat) (j : Nat) (s : RowState) (prior l : List UInt8) (hok : s.ok = true)
    (hl : h * (rowBytes depth n x + 1) ≤ l.length) (hraw : ∀ k, k < l.length → raw[s.pos + k]? = some (some (l.getD k 0)))
    (hf : s.fbuf.length = rowBytes depth n x * 2) (hp0 : j = 0 → ∀ k, prior.getD k 0 = 0)
    (hp1 : j ≠ 0 → ∀ k, k < rowBytes depth n x → s.fbuf[(j + 1) % 2 * rowBytes depth n x + k]? = some (some (prior.getD k 0)))
    (hout : (j + h) * (x * outN) ≤ s.out.length) (h32 : (j + h) * (x * outN * (if depth = 16 then 2 else 1)) < 4294967296) :
    Ok (forBreak h j s (rowStep raw x n outN depth color (rowBytes depth n x))) fun s' =>
      match unfilterRows (filterBytes depth n) (rowBytes depth n x) h prior l with
      | none => s'.ok = false
      | some (rows, _) => s'.ok = true ∧ Put s.out s'.out (j * (x * outN)) (h * x) outN (rowsPixel depth color n x rows) := by
  induction h generalizing j s prior l with
  | zero =>
    refine Ok.pure ⟨hok, rfl, fun i hi => absurd hi (by omega), fun _ _ => rfl⟩
  | succ h ih =>
    obtain ⟨hfb, hfb'⟩ := filterBytes_le hd hn0 hx (x := x)
    have hrw := row_width hd (n := n) (x := x)
    have hsz : (h + 1) * (rowBytes depth n x + 1) = h * (rowBytes depth n x + 1) + rowBytes depth n x + 1 := by ring
    have hcx : (x * n * depth + 7) / 8 = rowBytes depth n x := by rw [rowBytes, Nat.mul_comm x n]
    generalize hR : rowBytes depth n x = R at *
    generalize hF : filterBytes depth n = F at *
    rw [hsz] at hl
    match l, hl, hraw with
    | [], hl, _ => simp at hl
    | b :: l, hl, hraw =>
    rw [List.length_cons] at hl hraw
    have hpar : j % 2 = 0 ∨ j % 2 = 1 := by omega
    have hcur : j % 2 * R + R ≤ R * 2 := by rcases hpar with e | e <;> rw [e] <;> omega
    have hpar' : ((j + 1) % 2 * R + R ≤ j % 2 * R ∨ j % 2 * R + R ≤ (j + 1) % 2 * R) := by
      rcases hpar with e | e
      · rw [e, show (j + 1) % 2 = 1 by omega]; omega
      · rw [e, show (j + 1) % 2 = 0 by omega]; omega
    rw [forBreak, rowStep, rd_ok (by have := hraw 0 (by omega); simpa using this), ok_bind, unfilterRows]
    rw [if_pos (show R ≤ l.length by omega)]
    by_cases hb : 4 < b.toNat
    · rw [if_pos hb, unfilterRow_bad hb _ _ (by
        intro e
        have := congrArg List.length e
        rw [List.length_take, List.length_nil] at this
        omega)]
      exact Ok.pure rfl
    · rw [if_neg hb, rowFilter_ok (by omega), ok_bind]
      obtain ⟨row, hrow, hrl, _, _⟩ := unfilterRow_spec (show b.toNat ≤ 4 by omega) hfb prior (l.take R) []
      have hfbe : (if depth < 8 then 1 else n * if depth = 16 then 2 else 1) = F := by rw [← hF, filterBytes]
      rw [hfbe, hrw]
      have h1 := filterRow_ok (a := ⟨raw, s.pos + 1, j % 2 * R, (j + 1) % 2 * R, R, F⟩) (f0 := s.fbuf) (j := j) (prior := prior) (l := l.take R) (row := row) (t := b.toNat)
        (by omega) hfb hfb' (fun k hk => by
          have hk : k < R := hk
          have := hraw (k + 1) (by omega)
          rw [List.getD_cons_succ] at this
          rw [show s.pos + 1 + k = s.pos + (k + 1) by omega, this, List.getD_eq_getElem?_getD, List.getD_eq_getElem?_getD, List.getElem?_take, if_pos hk])
        (by rw [hf]; exact hcur) (by rw [List.length_take]; exact Nat.min_eq_left (by omega)) hpar' hp0 hp1 hrow
      obtain ⟨f, hfe, g1, g2, g3⟩ := h1
      rw [hfe, ok_bind]
      have hmul : (j + (h + 1)) * (x * outN) = (j + 1 + h) * (x * outN) := by congr 1; omega
      have hmul2 : (j + 1 + h) * (x * outN) = j * (x * outN) + x * outN + h * (x * outN) := by ring
      have hst : u32 (u32 (x * outN * (if depth = 16 then 2 else 1)) * j) / (if depth = 16 then 2 else 1) = j * (x * outN) := by
        generalize hB : (if depth = 16 then 2 else 1) = B at *
        have hB0 : 0 < B := by rw [← hB]; split_ifs <;> omega
        have e : (j + (h + 1)) * (x * outN * B) = x * outN * B * j + x * outN * B + h * (x * outN * B) := by ring
        rw [e] at h32
        rw [u32_eq (show x * outN * B < 4294967296 by omega), u32_eq (show x * outN * B * j < 4294967296 by omega), show x * outN * B * j = j * (x * outN) * B by ring, Nat.mul_div_cancel _ hB0]
      rw [hst]
      have h2 := expandRow_ok (row := row) (cur := j % 2 * R) (nk := R) (f := f) (dest := j * (x * outN)) (x := x) (n := n) (outN := outN) (color := color) (t := s.out) hd hn
        (fun i hi => g2 i hi) (by rw [hcx]) (by omega)
      obtain ⟨t, hte, ht⟩ := h2
      rw [hte]
      simp only [ok_bind, pure_bind', Bool.false_eq_true, if_false]
      rw [hrow]
      simp only [Option.bind_some]
      have hrl' : row.length = R := by rw [hrl, List.length_take, List.length_nil]; omega
      have hih := ih (j + 1) ⟨f, t, s.pos + 1 + R, true⟩ row (l.drop R) rfl (by rw [List.length_drop]; omega)
        (fun k hk => by
          rw [List.length_drop] at hk
          have := hraw (k + R + 1) (by omega)
          rw [List.getD_cons_succ] at this
          show raw[s.pos + 1 + R + k]? = _
          rw [show s.pos + 1 + R + k = s.pos + (k + R + 1) by omega, this, List.getD_eq_getElem?_getD, List.getD_eq_getElem?_getD, List.getElem?_drop, Nat.add_comm k R])
        (by show f.length = _; rw [g1, hf]) (fun e => absurd e (by omega))
        (fun _ k hk => by
          show f[_]? = _
          rw [show (j + 1 + 1) % 2 = j % 2 by omega]
          exact g2 k hk)
        (by show _ ≤ t.length; rw [ht.1]; omega)
        (by rw [show j + 1 + h = j + (h + 1) by omega]; exact h32)
      refine hih.mono ?_
      intro s' hs'
      cases hu : unfilterRows F R h row (l.drop R) with
      | none =>
        rw [hu] at hs'
        exact hs'
      | some r =>
        obtain ⟨rows, rest⟩ := r
        rw [hu] at hs'
        simp only [Option.map_some]
        refine ⟨hs'.1, ?_⟩
        have := ht.append hs'.2 (by ring)
        rw [show (h + 1) * x = x + h * x by ring]
        refine this.congr fun i hi c hc => ?_
        rw [rowsPixel]
        by_cases hix : i < x
        · rw [if_pos hix, Nat.div_eq_of_lt hix, Nat.mod_eq_of_lt hix]
          rfl
        · rw [if_neg hix, rowsPixel]
          obtain ⟨k, rfl⟩ : ∃ k, i = k + x := ⟨i - x, by omega⟩
          rw [Nat.add_sub_cancel, Nat.add_div_right _ hx, Nat.add_mod_right, List.getD_cons_succ]

theorem unfilterRows_length {bpp rb h : Nat} {prior l rest : List UInt8} {rows : List (List UInt8)} (e : unfilterRows bpp rb h prior l = some (rows, rest)) :
    rest = l.drop (h * (rb + 1)) ∧ h * (rb + 1) ≤ l.length ∧ rows.length = h := by
  induction h generalizing prior l rows with
  | zero =>
    rw [unfilterRows] at e
    obtain ⟨rfl, rfl⟩ := Prod.mk.inj (Option.some.inj e)
    simp
  | succ h ih =>
    cases l with
    | nil => simp [unfilterRows] at e
    | cons t l =>
      rw [unfilterRows] at e
      split_ifs at e with hr
      rw [Option.bind_eq_some_iff] at e
      obtain ⟨row, _, e⟩ := e
      rw [Option.map_eq_some_iff] at e
      obtain ⟨⟨rows', rest'⟩, h1, h2⟩ := e
      obtain ⟨rfl, rfl⟩ := Prod.mk.inj h2
      obtain ⟨g1, g2, g3⟩ := ih h1
      rw [List.length_drop] at g2
      have e' : (h + 1) * (rb + 1) = h * (rb + 1) + rb + 1 := by ring
      refine ⟨?_, by rw [List.length_cons, e']; omega, by simp [g3]⟩
      rw [g1, e', List.drop_succ_cons, List.drop_drop, Nat.add_comm]

/-! ### Sizes -/

theorem mul2ok_iff {a b : Nat} : mul2ok a b = true ↔ a * b ≤ 2147483647 := by
  rw [mul2ok, Bool.or_eq_true, decide_eq_true_iff, decide_eq_true_iff]
  rcases Nat.eq_zero_or_pos b with rfl | hb
  · simp
  · rw [Nat.le_div_iff_mul_le hb]
    omega

theorem addok_iff {a b : Nat} (hb : b ≤ 2147483647) : addok a b = true ↔ a + b ≤ 2147483647 := by
  rw [addok, decide_eq_true_iff]
  omega

theorem mad2ok_of {a b add : Nat} (h : a * b + add ≤ 2147483647) : mad2ok a b add = true := by
  rw [mad2ok, Bool.and_eq_true, mul2ok_iff, addok_iff (by omega)]
  omega

theorem mad3ok_of {a b c add : Nat} (hc : 0 < c) (h : a * b * c + add ≤ 2147483647) : mad3ok a b c add = true := by
  have : a * b ≤ a * b * c := Nat.le_mul_of_pos_right _ hc
  rw [mad3ok, Bool.and_eq_true, Bool.and_eq_true, mul2ok_iff, mul2ok_iff, addok_iff (by omega)]
  omega

theorem mad2ok_le {a b add : Nat} (h : mad2ok a b add = true) : a * b ≤ 2147483647 := by
  rw [mad2ok, Bool.and_eq_true, mul2ok_iff] at h
  exact h.1

theorem mad3ok_le {a b c add : Nat} (h : mad3ok a b c add = true) : a * b * c ≤ 2147483647 := by
  rw [mad3ok, Bool.and_eq_true, Bool.and_eq_true, mul2ok_iff, mul2ok_iff] at h
  exact h.1.2

/-- Bytes of a sample. -/
def sampleBytes (depth : Nat) : Nat := if depth = 16 then 2 else 1

/-- The block consists of the samples `g` of `m` pixels with `n` samples each. -/
def HoldsPix (t : Cells Nat) (m n : Nat) (g : Nat → Nat → Nat) : Prop :=
  t.length = m * n ∧ ∀ p, p < m → ∀ c, c < n → t[p * n + c]? = some (some (g p c))

/-- Sizes for which all blocks can be had. -/
def RawFits (n outN x y depth : Nat) : Prop :=
  x * y * (outN * sampleBytes depth) ≤ 2147483647 ∧ n * x * depth + 7 ≤ 2147483647 ∧ rowBytes depth n x * y + rowBytes depth n x ≤ 2147483647 ∧
    rowBytes depth n x * 2 ≤ 2147483647

theorem create_raw_ok {m : PngMem} {p : Nat} {raw : Cells UInt8} {l : List UInt8} {pos n outN x y depth color : Nat} (hd : depth ∈ [1, 2, 4, 8, 16]) (hn0 : 0 < n) (hx : 0 < x)
    (hy : y ≤ 16777216) (hn : outN = n ∨ (outN = n + 1 ∧ (n = 1 ∨ n = 3))) (hraw : ∀ k, k < l.length → raw[pos + k]? = some (some (l.getD k 0))) :
    Ok (create_png_image_raw m p raw pos l.length n outN x y depth color) fun r =>
      (∀ t, r = some t → ∃ rows rest, unfilterRows (filterBytes depth n) (rowBytes depth n x) y (List.replicate (rowBytes depth n x) 0) l = some (rows, rest) ∧
        HoldsPix t (x * y) outN (rowsPixel depth color n x rows) ∧ (x * y * outN) * sampleBytes depth ≤ 2147483647) ∧
      (r = none → m.out p = true → m.filter p = true → RawFits n outN x y depth →
        unfilterRows (filterBytes depth n) (rowBytes depth n x) y (List.replicate (rowBytes depth n x) 0) l = none) := by
  rw [create_png_image_raw]
  have hB0 : 0 < sampleBytes depth := by rw [sampleBytes]; split_ifs <;> omega
  have hR : (n * x * depth + 7) / 8 = rowBytes depth n x := rfl
  have hB : (if depth = 16 then 2 else 1) = sampleBytes depth := rfl
  simp only [hR, hB]
  have hout0 : 0 < outN := by omega
  by_cases c1 : (!(mad3ok x y (outN * sampleBytes depth) 0 && m.out p)) = true
  · rw [if_pos c1]
    refine Ok.pure' ⟨fun t ht => (by cases ht), fun _ h1 h2 h3 => ?_⟩
    rw [mad3ok_of (Nat.mul_pos hout0 hB0) (by have := h3.1; omega), h1] at c1
    cases c1
  rw [if_neg c1]
  by_cases c2 : (!mad3ok n x depth 7) = true
  · rw [if_pos c2]
    refine Ok.pure' ⟨fun t ht => (by cases ht), fun _ h1 h2 h3 => ?_⟩
    rw [mad3ok_of (by rcases depth_cases hd with rfl | rfl | rfl | rfl | rfl <;> omega) h3.2.1] at c2
    cases c2
  rw [if_neg c2]
  by_cases c3 : (!mad2ok (rowBytes depth n x) y (rowBytes depth n x)) = true
  · rw [if_pos c3]
    refine Ok.pure' ⟨fun t ht => (by cases ht), fun _ h1 h2 h3 => ?_⟩
    rw [mad2ok_of h3.2.2.1] at c3
    cases c3
  rw [if_neg c3]
  have hle := mad2ok_le (by simpa using c3)
  have hlen : u32 ((rowBytes depth n x + 1) * y) = y * (rowBytes depth n x + 1) := by
    rw [u32_eq (by rw [Nat.add_mul]; omega), Nat.mul_comm]
  rw [hlen]
  by_cases c4 : l.length < y * (rowBytes depth n x + 1)
  · rw [if_pos c4]
    refine Ok.pure' ⟨fun t ht => (by cases ht), fun _ h1 h2 h3 => ?_⟩
    cases hu : unfilterRows (filterBytes depth n) (rowBytes depth n x) y (List.replicate (rowBytes depth n x) 0) l with
    | none => rfl
    | some r =>
      obtain ⟨rows, rest⟩ := r
      have := (unfilterRows_length hu).2.1
      omega
  rw [if_neg c4]
  by_cases c5 : (!(mad2ok (rowBytes depth n x) 2 0 && m.filter p)) = true
  · rw [if_pos c5]
    refine Ok.pure' ⟨fun t ht => (by cases ht), fun _ h1 h2 h3 => ?_⟩
    rw [mad2ok_of (by have := h3.2.2.2; omega), h2] at c5
    cases c5
  rw [if_neg c5]
  have hle2 : x * y * (outN * sampleBytes depth) ≤ 2147483647 := by
    refine mad3ok_le (add := 0) ?_
    simp only [Bool.not_eq_true, Bool.not_eq_false', Bool.and_eq_true] at c1
    exact c1.1
  have e1 : x * y * (outN * sampleBytes depth) = (0 + y) * (x * outN * sampleBytes depth) := by ring
  have e2 : x * y * (outN * sampleBytes depth) = (x * y * outN) * sampleBytes depth := by ring
  refine Ok.bind (rows_ok (raw := raw) (color := color) hd hn0 hx hn y 0
    ⟨List.replicate (rowBytes depth n x * 2) none, List.replicate (x * y * outN) none, pos, true⟩ (List.replicate (rowBytes depth n x) 0) l rfl (by omega) hraw
    (by simp) (fun _ k => by
      rw [List.getD_eq_getElem?_getD, List.getElem?_replicate]
      split_ifs <;> rfl) (fun h => absurd rfl h)
    (by simp only [List.length_replicate]; exact le_of_eq (by ring)) (by rw [hB]; omega)) ?_
  intro s hs
  cases hu : unfilterRows (filterBytes depth n) (rowBytes depth n x) y (List.replicate (rowBytes depth n x) 0) l with
  | none =>
    rw [hu] at hs
    rw [show s.ok = false from hs]
    exact Ok.pure' ⟨fun t ht => (by cases ht), fun _ _ _ _ => rfl⟩
  | some r =>
    obtain ⟨rows, rest⟩ := r
    rw [hu] at hs
    obtain ⟨h1, h2, h3, _⟩ := hs
    rw [h1]
    refine Ok.pure' ⟨fun t ht => ?_, fun h => (by cases h)⟩
    obtain rfl : s.out = t := by simpa using ht
    refine ⟨rows, rest, rfl, ⟨by rw [h2]; simp, fun p hp c hc => ?_⟩, by omega⟩
    have := h3 p (by rw [Nat.mul_comm]; exact hp) c hc
    simpa using this

end FlatCV
