/-
The filters of the PNG writer: every line is one of the five predictions of RFC 2083 subtracted from the row, so that the
reader gets the row back.
-/
import Verif.Lemmas.PngCrc

namespace FlatCV
open Model Png

/-! ### Predictions -/

theorem stbiw_paeth_eq (a b c : Nat) : stbiw_paeth a b c = (paeth a b c : Nat) := by
  simp only [stbiw_paeth, paeth, Int.abs_eq_natAbs, Nat.cast_le]
  split_ifs <;> rfl

/-- The sample at position `k` of the image. -/
def smp (px : List UInt8) (k : Nat) : UInt8 := px.getD k 0

/-- The prediction of byte `i` of row `j`; rows of `wn` bytes, pixels of `n` bytes. -/
def prediction (px : List UInt8) (wn n f j i : Nat) : Nat :=
  (predict f (if n ≤ i then (smp px (j * wn + i - n)).toNat else 0) (if j = 0 then 0 else (smp px ((j - 1) * wn + i)).toNat)
    (if n ≤ i ∧ j ≠ 0 then (smp px ((j - 1) * wn + i - n)).toNat else 0)).getD 0

/-- Byte `i` of the filtered row `j`. -/
def filtered (px : List UInt8) (wn n f j i : Nat) : UInt8 :=
  u8OfInt ((smp px (j * wn + i)).toNat - (prediction px wn n f j i : Int))

theorem rdInZ_smp {px : List UInt8} {z : Int} {k : Nat} (h : z = k) (hk : k < px.length) : rdInZ px z = .ok (smp px k) := by
  subst h
  rw [rdInZ, if_pos (by omega), Int.toNat_natCast, rdIn_ok (List.getElem?_eq_getElem hk), smp, List.getD_eq_getElem?_getD,
    List.getElem?_eq_getElem hk]
  rfl

theorem u8OfInt_self (v : UInt8) : u8OfInt (v.toNat : Int) = v := by
  rw [u8OfInt, ← UInt8.toNat_inj, UInt8.toNat_ofNat']
  have := v.toNat_lt
  omega

/-- The kind of line for a filter (stb_image_write.h:1094-1096). -/
def lineType (j f : Nat) : Nat := (if j ≠ 0 then [0, 1, 2, 3, 4] else [0, 1, 0, 5, 6]).getD f 0

theorem lineFirst_ok {px : List UInt8} {wn n f j i : Nat} (hf : f < 5) (hi : i < n) (hn : n ≤ wn) (hp : (j + 1) * wn ≤ px.length) :
    lineFirst px (((j * wn : Nat) : Int)) wn (lineType j f) i = .ok (filtered px wn n f j i) := by
  have hw : j * wn + wn ≤ px.length := by rwa [Nat.add_mul, Nat.one_mul] at hp
  have hv := rdInZ_smp (px := px) (z := ((j * wn : Nat) : Int) + i) (k := j * wn + i) (by push_cast; ring) (by omega)
  have hni : ¬ n ≤ i := by omega
  have hf' : f = 0 ∨ f = 1 ∨ f = 2 ∨ f = 3 ∨ f = 4 := by omega
  rcases Nat.eq_zero_or_pos j with hj | hj
  · subst hj
    generalize ((0 * wn : Nat) : Int) = z at *
    rw [lineFirst, hv, ok_bind]
    rcases hf' with rfl | rfl | rfl | rfl | rfl <;>
      simp [lineType, filtered, prediction, predict, hni, paeth, u8OfInt_self, Pure.pure, Except.pure]
  · obtain ⟨k, rfl⟩ : ∃ k, j = k + 1 := ⟨j - 1, by omega⟩
    have e : ((((k + 1) * wn : Nat) : Int) + ((i : Int) - wn)) = ((k * wn + i : Nat) : Int) := by push_cast; ring
    have hb := rdInZ_smp (px := px) e (by rw [Nat.add_mul] at hw; omega)
    clear e
    generalize (((k + 1) * wn : Nat) : Int) = z at *
    rw [lineFirst, hv, ok_bind]
    have hpa := stbiw_paeth_eq 0 (smp px (k * wn + i)).toNat 0
    simp only [Nat.cast_zero] at hpa
    rcases hf' with rfl | rfl | rfl | rfl | rfl <;>
      simp [lineType, filtered, prediction, predict, hni, u8OfInt_self, Pure.pure, Except.pure, hb, hpa]

theorem lineNext_ok {px : List UInt8} {wn n f j i : Nat} (hf : f < 5) (hi : n ≤ i) (hn : i < wn) (hp : (j + 1) * wn ≤ px.length) :
    lineNext px (((j * wn : Nat) : Int)) wn n (lineType j f) i = .ok (filtered px wn n f j i) := by
  have hw : j * wn + wn ≤ px.length := by rwa [Nat.add_mul, Nat.one_mul] at hp
  have hv := rdInZ_smp (px := px) (z := ((j * wn : Nat) : Int) + i) (k := j * wn + i) (by push_cast; ring) (by omega)
  have ha := rdInZ_smp (px := px) (z := ((j * wn : Nat) : Int) + (i - n : Int)) (k := j * wn + i - n) (by omega) (by omega)
  have hf' : f = 0 ∨ f = 1 ∨ f = 2 ∨ f = 3 ∨ f = 4 := by omega
  rcases Nat.eq_zero_or_pos j with hj | hj
  · subst hj
    generalize ((0 * wn : Nat) : Int) = z at *
    simp only [Nat.zero_mul, Nat.zero_add] at ha
    rw [lineNext, hv, ok_bind]
    have hpa := stbiw_paeth_eq (smp px (i - n)).toNat 0 0
    simp only [Nat.cast_zero] at hpa
    rcases hf' with rfl | rfl | rfl | rfl | rfl <;>
      simp [lineType, filtered, prediction, predict, hi, u8OfInt_self, Pure.pure, Except.pure, ha, hpa]
  · obtain ⟨k, rfl⟩ : ∃ k, j = k + 1 := ⟨j - 1, by omega⟩
    rw [Nat.add_mul] at hw
    have e : ((((k + 1) * wn : Nat) : Int) + ((i : Int) - wn)) = ((k * wn + i : Nat) : Int) := by push_cast; ring
    have hb := rdInZ_smp (px := px) e (by omega)
    have e' : ((((k + 1) * wn : Nat) : Int) + ((i : Int) - wn - n)) = ((k * wn + i - n : Nat) : Int) := by
      rw [Nat.cast_sub (by omega)]
      push_cast
      ring
    have hc := rdInZ_smp (px := px) e' (by omega)
    clear e e'
    generalize (((k + 1) * wn : Nat) : Int) = z at *
    rw [lineNext, hv, ok_bind]
    have hpa := stbiw_paeth_eq (smp px ((k + 1) * wn + i - n)).toNat (smp px (k * wn + i)).toNat (smp px (k * wn + i - n)).toNat
    rcases hf' with rfl | rfl | rfl | rfl | rfl <;>
      simp [lineType, filtered, prediction, predict, hi, u8OfInt_self, Pure.pure, Except.pure, ha, hb, hc, hpa]

/-! ### A line -/

/-- Filling cells from `lo` on. -/
theorem fill_from {F : Nat → UInt8} {f : Nat → CM UInt8} {lo hi L : Nat} {s : Cells UInt8} (hs : s.length = L) (hlo : lo ≤ hi) (hL : hi ≤ L)
    (h0 : ∀ i, i < lo → s[i]? = some (some (F i))) (hf : ∀ i, lo ≤ i → i < hi → f i = .ok (F i)) :
    Ok (forFrom lo hi s fun i s => do let v ← f i; wr s i v) fun r => r.length = L ∧ ∀ i, i < hi → r[i]? = some (some (F i)) := by
  rw [forFrom]
  refine (forN_ok (I := fun k r => r.length = L ∧ ∀ i, i < lo + k → r[i]? = some (some (F i))) ⟨hs, h0⟩ ?_).mono ?_
  · rintro k hk r ⟨h1, h2⟩
    rw [hf (lo + k) (by omega) (by omega), ok_bind, wr_ok (by omega)]
    refine Ok.pure ⟨by simpa using h1, fun i hi => ?_⟩
    rw [List.getElem?_set]
    split_ifs with h3 h4
    · rw [h3]
    · omega
    · exact h2 i (by omega)
  · rintro r ⟨h1, h2⟩
    exact ⟨h1, fun i hi => h2 i (by omega)⟩

theorem cells_ext {F : Nat → UInt8} {r : Cells UInt8} {L : Nat} (h1 : r.length = L) (h2 : ∀ i, i < L → r[i]? = some (some (F i))) :
    r = ((List.range L).map F).map some := by
  apply List.ext_getElem?
  intro i
  by_cases hi : i < L
  · rw [h2 i hi]
    simp [hi]
  · rw [List.getElem?_eq_none (by omega), List.getElem?_eq_none (by simp; omega)]

theorem encode_line_ok {px : List UInt8} {wn n f j : Nat} {line : Cells UInt8} (hf : f < 5) (hn : n ≤ wn) (hp : (j + 1) * wn ≤ px.length)
    (hl : line.length = wn) (h31 : j * wn < 2147483648) :
    stbiw_encode_png_line px wn wn j n f line = .ok (((List.range wn).map (filtered px wn n f j)).map some) := by
  have hw : j * wn + wn ≤ px.length := by rwa [Nat.add_mul, Nat.one_mul] at hp
  have ht : rdIn (if j ≠ 0 then [0, 1, 2, 3, 4] else [0, 1, 0, 5, 6]) f = .ok (lineType j f) := by
    have hf' : f = 0 ∨ f = 1 ∨ f = 2 ∨ f = 3 ∨ f = 4 := by omega
    unfold lineType
    split_ifs <;> rcases hf' with rfl | rfl | rfl | rfl | rfl <;> rfl
  have hz : ((wn : Int) * j) = ((j * wn : Nat) : Int) := by push_cast; ring
  have done : Ok (stbiw_encode_png_line px wn wn j n f line) fun r =>
      r.length = wn ∧ ∀ i, i < wn → r[i]? = some (some (filtered px wn n f j i)) := by
    rw [stbiw_encode_png_line, ht, ok_bind, hz, i32_ok (by constructor <;> omega), ok_bind]
    split_ifs with h0
    · rw [Int.toNat_natCast, memcpyIn]
      have := fill_from (F := filtered px wn n f j) (f := fun k => rdIn px (j * wn + k)) (lo := 0) (hi := wn) (s := line) hl (by omega)
        le_rfl (by omega) ?_
      · rw [forFrom] at this
        simpa using this
      · intro i _ hi
        have hv := rdInZ_smp (px := px) (z := ((j * wn : Nat) : Int) + i) (k := j * wn + i) (by push_cast; ring) (by omega)
        rw [rdInZ, if_pos (by omega), show (((j * wn : Nat) : Int) + i).toNat = j * wn + i by omega] at hv
        rw [hv]
        have hf' : f = 0 ∨ f = 1 ∨ f = 2 ∨ f = 3 ∨ f = 4 := by omega
        rcases Nat.eq_zero_or_pos j with hj | hj
        · subst hj
          rcases hf' with rfl | rfl | rfl | rfl | rfl <;> simp [lineType] at h0 <;>
            simp [filtered, prediction, predict, u8OfInt_self]
        · obtain ⟨k, rfl⟩ : ∃ k, j = k + 1 := ⟨j - 1, by omega⟩
          rcases hf' with rfl | rfl | rfl | rfl | rfl <;> simp [lineType] at h0 <;>
            simp [filtered, prediction, predict, u8OfInt_self]
    · have first := fill_from (F := filtered px wn n f j) (f := fun i => lineFirst px ((j * wn : Nat) : Int) wn (lineType j f) i) (lo := 0)
        (hi := n) (s := line) hl (by omega) hn (by omega) fun i _ hi => lineFirst_ok hf hi hn hp
      rw [forFrom] at first
      simp only [Nat.sub_zero, Nat.zero_add] at first
      refine Ok.bind first ?_
      rintro r ⟨h1, h2⟩
      exact fill_from h1 hn le_rfl h2 fun i hi hi' => lineNext_ok hf hi hi' hp
  obtain ⟨r, e, h1, h2⟩ := done
  rw [e, cells_ext h1 h2]

theorem estimate_ok {l : List UInt8} (h : l.length < 16777216) : Ok (estimate l.length (l.map some)) fun _ => True := by
  rw [estimate]
  refine (forN_ok (I := fun i (est : Int) => 0 ≤ est ∧ est ≤ 128 * i) ⟨le_rfl, le_rfl⟩ ?_).mono fun _ _ => trivial
  rintro i hi est ⟨h1, h2⟩
  rw [rd_map_some, rdIn_ok (List.getElem?_eq_getElem hi), ok_bind]
  have hv := l[i].toNat_lt
  have : (if l[i].toNat < 128 then l[i].toNat else 256 - l[i].toNat) ≤ 128 := by split_ifs <;> omega
  generalize (if l[i].toNat < 128 then l[i].toNat else 256 - l[i].toNat) = t at *
  rw [i32_ok (by constructor <;> omega)]
  exact Ok.pure ⟨by omega, by push_cast; omega⟩

/-- The bytes of the filtered row `j`, with the filter in front. -/
def filteredRow (px : List UInt8) (wn n f j : Nat) : List UInt8 := u8 f :: (List.range wn).map (filtered px wn n f j)

theorem filteredRow_length (px : List UInt8) (wn n f j : Nat) : (filteredRow px wn n f j).length = wn + 1 := by simp [filteredRow]

/-- Copying a list into cells that follow others. -/
theorem memcpy_behind {A : Cells UInt8} {l : List UInt8} {m : Nat} (hm : l.length ≤ m) :
    memcpyIn (A ++ List.replicate m none) A.length l 0 l.length = .ok (A ++ l.map some ++ List.replicate (m - l.length) none) := by
  have key : ∀ k, k ≤ l.length → memcpyIn (A ++ List.replicate m none) A.length l 0 k =
      .ok (A ++ (l.take k).map some ++ List.replicate (m - k) none) := by
    intro k
    induction k with
    | zero => intro _; simp [memcpyIn]
    | succ k ih =>
      intro hk
      have ih := ih (by omega)
      rw [memcpyIn] at ih ⊢
      rw [forN_succ, ih, ok_bind, Nat.zero_add, rdIn_ok (List.getElem?_eq_getElem (by omega : k < l.length)), ok_bind, wr_ok (by simp; omega),
        List.set_append_right _ _ (by simp), show A.length + k - (A ++ (l.take k).map some).length = 0 by simp; omega,
        show m - k = (m - (k + 1)) + 1 by omega, List.replicate_succ, List.set_cons_zero, ← take_snoc (by omega : k < l.length)]
      simp only [List.map_append, List.map_cons, List.map_nil, List.append_assoc, List.cons_append, List.nil_append]
  have := key l.length le_rfl
  rwa [List.take_length] at this

theorem filterLine_ok {px : List UInt8} {wn n j : Nat} {line : Cells UInt8} {L : List UInt8} {m : Nat} (hn : n ≤ wn)
    (hp : (j + 1) * wn ≤ px.length) (hl : line.length = wn) (h24 : wn < 16777216) (h31 : j * (wn + 1) < 2147483648)
    (hL : L.length = j * (wn + 1)) (hm : wn + 1 ≤ m) :
    Ok (filterLine px wn wn n j (L.map some ++ List.replicate m none) line) fun r => r.2.length = wn ∧ ∃ f, f < 5 ∧
      r.1 = (L ++ filteredRow px wn n f j).map some ++ List.replicate (m - (wn + 1)) none := by
  have h31' : j * wn < 2147483648 := lt_of_le_of_lt (Nat.mul_le_mul_left j (by omega)) h31
  rw [filterLine]
  refine Ok.bind (forN_ok (I := fun _ (s : Cells UInt8 × Nat × Int) => s.1.length = wn ∧ s.2.1 < 5) ⟨hl, by show 0 < 5; omega⟩ ?_) ?_
  · rintro f hf ⟨ln, best, val⟩ ⟨h1, h2⟩
    simp only at h1 h2 ⊢
    rw [encode_line_ok hf hn hp h1 h31', ok_bind]
    have hest := estimate_ok (l := (List.range wn).map (filtered px wn n f j)) (by simpa using h24)
    rw [List.length_map, List.length_range] at hest
    refine Ok.bind hest ?_
    intro est _
    refine Ok.pure' ?_
    split_ifs
    · exact ⟨by simp, hf⟩
    · exact ⟨by simp, h2⟩
  · rintro ⟨ln, best, val⟩ ⟨h1, h2⟩
    simp only at h1 h2 ⊢
    have e : ((j : Int) * (wn + 1)) = ((j * (wn + 1) : Nat) : Int) := by push_cast; ring
    rw [encode_line_ok h2 hn hp h1 h31', ok_bind, e, i32_ok (by constructor <;> omega), ok_bind, Int.toNat_natCast,
      wr_ok (by simp; omega), ok_bind, asInput_map_some, ok_bind]
    have hset : (L.map some ++ List.replicate m none).set (j * (wn + 1)) (some (u8 best)) =
        (L ++ [u8 best]).map some ++ List.replicate (m - 1) none := by
      rw [List.set_append_right _ _ (by simp; omega), show j * (wn + 1) - (L.map some).length = 0 by simp; omega,
        show m = (m - 1) + 1 by omega, List.replicate_succ, List.set_cons_zero]
      simp
    rw [hset]
    have hcopy := memcpy_behind (A := (L ++ [u8 best]).map some) (l := (List.range wn).map (filtered px wn n best j)) (m := m - 1) (by simp; omega)
    rw [show ((L ++ [u8 best]).map some).length = j * (wn + 1) + 1 by simp; omega, List.length_map, List.length_range] at hcopy
    rw [hcopy, ok_bind]
    refine Ok.pure' ⟨by simp, best, h2, ?_⟩
    show _ = _
    rw [show m - 1 - wn = m - (wn + 1) by omega]
    simp [filteredRow]

/-! ### Reading -/

/-- Row `j` of the image. -/
def rowOf (px : List UInt8) (wn j : Nat) : List UInt8 := (px.drop (j * wn)).take wn

/-- The row above row `j`. -/
def rowAbove (px : List UInt8) (wn j : Nat) : List UInt8 := if j = 0 then List.replicate wn 0 else rowOf px wn (j - 1)

theorem rowOf_getD {px : List UInt8} {wn j i : Nat} (hi : i < wn) : (rowOf px wn j).getD i 0 = smp px (j * wn + i) := by
  rw [rowOf, smp, List.getD_eq_getElem?_getD, List.getD_eq_getElem?_getD, List.getElem?_take, if_pos hi, List.getElem?_drop]

theorem rowAbove_getD {px : List UInt8} {wn j i : Nat} (hi : i < wn) :
    ((rowAbove px wn j).getD i 0).toNat = if j = 0 then 0 else (smp px ((j - 1) * wn + i)).toNat := by
  rw [rowAbove]
  split_ifs
  · simp [List.getD_eq_getElem?_getD, hi]
  · rw [rowOf_getD hi]

theorem unfilterByte_ok {px : List UInt8} {wn n f j i : Nat} (hf : f < 5) (hi : i < wn) (hn : 0 < n) (hp : (j + 1) * wn ≤ px.length) :
    unfilterByte n f (rowAbove px wn j) ((rowOf px wn j).take i) (filtered px wn n f j i) = some (smp px (j * wn + i)) := by
  have hw : j * wn + wn ≤ px.length := by rwa [Nat.add_mul, Nat.one_mul] at hp
  have hlen : ((rowOf px wn j).take i).length = i := by
    simp [rowOf]
    omega
  have ha : (if n ≤ i then (((rowOf px wn j).take i).getD (i - n) 0).toNat else 0) = if n ≤ i then (smp px (j * wn + i - n)).toNat else 0 := by
    split_ifs with h
    · rw [List.getD_eq_getElem?_getD, List.getElem?_take, if_pos (by omega), ← List.getD_eq_getElem?_getD, rowOf_getD (by omega),
        show j * wn + (i - n) = j * wn + i - n by omega]
    · rfl
  have hc : (if n ≤ i then ((rowAbove px wn j).getD (i - n) 0).toNat else 0) =
      if n ≤ i ∧ j ≠ 0 then (smp px ((j - 1) * wn + i - n)).toNat else 0 := by
    by_cases h : n ≤ i
    · rw [if_pos h, rowAbove_getD (by omega)]
      by_cases hj : j = 0
      · simp [hj]
      · rw [if_neg hj, if_pos ⟨h, hj⟩, show (j - 1) * wn + (i - n) = (j - 1) * wn + i - n by omega]
    · rw [if_neg h, if_neg (by tauto)]
  rw [unfilterByte]
  simp only [hlen]
  rw [ha, rowAbove_getD hi, hc]
  have hsome : ∀ a b c, predict f a b c = some ((predict f a b c).getD 0) := by
    intro a b c
    have hf' : f = 0 ∨ f = 1 ∨ f = 2 ∨ f = 3 ∨ f = 4 := by omega
    rcases hf' with rfl | rfl | rfl | rfl | rfl <;> rfl
  rw [hsome]
  simp only [Option.map_some, Option.some.injEq]
  rw [filtered, prediction]
  generalize (predict f _ _ _).getD 0 = p
  rw [u8OfInt, ← UInt8.toNat_inj, UInt8.toNat_ofNat', UInt8.toNat_ofNat']
  have := (smp px (j * wn + i)).toNat_lt
  omega

theorem unfilterRow_ok {px : List UInt8} {wn n f j : Nat} (hf : f < 5) (hn : 0 < n) (hp : (j + 1) * wn ≤ px.length) :
    unfilterRow n f (rowAbove px wn j) [] ((List.range wn).map (filtered px wn n f j)) = some (rowOf px wn j) := by
  have hw : j * wn + wn ≤ px.length := by rwa [Nat.add_mul, Nat.one_mul] at hp
  have hlen : (rowOf px wn j).length = wn := by simp [rowOf]; omega
  have key : ∀ k i, i + k = wn → unfilterRow n f (rowAbove px wn j) ((rowOf px wn j).take i)
      ((List.range' i k).map (filtered px wn n f j)) = some (rowOf px wn j) := by
    intro k
    induction k with
    | zero =>
      intro i hi
      rw [List.range'_zero, List.map_nil, unfilterRow, List.take_of_length_le (by omega)]
    | succ k ih =>
      intro i hi
      rw [List.range'_succ, List.map_cons, unfilterRow, unfilterByte_ok hf (by omega) hn hp]
      simp only
      have : (rowOf px wn j).take i ++ [smp px (j * wn + i)] = (rowOf px wn j).take (i + 1) := by
        rw [← rowOf_getD (by omega : i < wn), List.getD_eq_getElem?_getD, List.getElem?_eq_getElem (by omega)]
        exact take_snoc (by omega)
      rw [this]
      exact ih (i + 1) (by omega)
  have := key wn 0 (by omega)
  rwa [List.take_zero, ← List.range_eq_range'] at this

/-- Reading one row. -/
theorem unfilter_row {px : List UInt8} {wn n f j k : Nat} (hf : f < 5) (hn : 0 < n) (hp : (j + 1) * wn ≤ px.length) (more : List UInt8) :
    unfilter n wn (k + 1) (rowAbove px wn j) (filteredRow px wn n f j ++ more) =
      (unfilter n wn k (rowAbove px wn (j + 1)) more).map (rowOf px wn j ++ ·) := by
  have hl : ((List.range wn).map (filtered px wn n f j)).length = wn := by simp
  rw [filteredRow, List.cons_append, unfilter]
  have hf8 : (u8 f).toNat = f := by
    rw [u8, UInt8.toNat_ofNat']
    omega
  rw [if_pos (by simp), List.take_left' hl, List.drop_left' hl, hf8, unfilterRow_ok hf hn hp]
  simp only
  have : rowAbove px wn (j + 1) = rowOf px wn j := by simp [rowAbove]
  rw [this]
  cases unfilter n wn k (rowOf px wn j) more <;> rfl

/-- Everything that is compressed, and how it is read. -/
theorem filter_all {px : List UInt8} {wn n h : Nat} (hn : 0 < n) (hnw : n ≤ wn) (hp : px.length = h * wn) (h24 : wn < 16777216)
    (h31 : h * (wn + 1) < 2147483648) {line : Cells UInt8} (hl : line.length = wn) :
    Ok (forN h (List.replicate (h * (wn + 1)) none, line) fun j s => filterLine px wn wn n j s.1 s.2) fun r =>
      ∃ L : List UInt8, r.1 = L.map some ∧ L.length = h * (wn + 1) ∧ unfilter n wn h (List.replicate wn 0) L = some px := by
  refine (forN_ok (I := fun j (s : Cells UInt8 × Cells UInt8) => s.2.length = wn ∧ ∃ L : List UInt8, L.length = j * (wn + 1) ∧
    s.1 = L.map some ++ List.replicate (h * (wn + 1) - j * (wn + 1)) none ∧ ∀ k more, unfilter n wn (j + k) (List.replicate wn 0) (L ++ more) =
      (unfilter n wn k (rowAbove px wn j) more).map (px.take (j * wn) ++ ·)) ?_ ?_).mono ?_
  · refine ⟨hl, [], by simp, by simp, fun k more => ?_⟩
    rw [List.nil_append, Nat.zero_add, Nat.zero_mul, List.take_zero]
    have : rowAbove px wn 0 = List.replicate wn 0 := rfl
    rw [this]
    cases unfilter n wn k (List.replicate wn 0) more <;> rfl
  · rintro j hj ⟨c, ln⟩ ⟨h1, L, h2, h3, h4⟩
    simp only at h1 h3 ⊢
    subst h3
    have hjw : (j + 1) * wn ≤ px.length := by rw [hp]; exact Nat.mul_le_mul_right _ hj
    have hjw2 : (j + 1) * (wn + 1) ≤ h * (wn + 1) := Nat.mul_le_mul_right _ hj
    have hjw3 : (j + 1) * (wn + 1) = j * (wn + 1) + (wn + 1) := by ring
    refine (filterLine_ok hnw hjw h1 h24 (by omega) h2 (by omega)).mono ?_
    rintro ⟨c, ln'⟩ ⟨g1, f, g2, g3⟩
    simp only at g1 g3 ⊢
    refine ⟨g1, L ++ filteredRow px wn n f j, by simp [filteredRow_length, h2]; omega, ?_, ?_⟩
    · rw [g3, show h * (wn + 1) - j * (wn + 1) - (wn + 1) = h * (wn + 1) - (j + 1) * (wn + 1) by omega]
    · intro k more
      rw [List.append_assoc, show j + 1 + k = j + (k + 1) by omega, h4, unfilter_row g2 hn hjw]
      have ht : px.take ((j + 1) * wn) = px.take (j * wn) ++ rowOf px wn j := by rw [Nat.add_mul, Nat.one_mul, List.take_add, rowOf]
      rw [ht]
      cases unfilter n wn k (rowAbove px wn (j + 1)) more with
      | none => rfl
      | some l => simp
  · rintro ⟨c, ln⟩ ⟨h1, L, h2, h3, h4⟩
    refine ⟨L, by simpa using h3, h2, ?_⟩
    have := h4 0 []
    rw [List.append_nil, Nat.add_zero] at this
    rw [this, unfilter, if_pos rfl, ← hp, List.take_length]
    simp

end FlatCV
