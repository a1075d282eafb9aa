/-
The whole watershed call: markers, painting, allocation.
-/
import Verif.Lemmas.Flood

namespace FlatCV
open Model Spec

/-! ### Markers -/

theorem trunc_of {q : ℚ} {n : Nat} (h : TruncatesTo q n) : trunc q = n := by
  obtain ⟨h1, h2, h3⟩ := h
  unfold trunc
  split_ifs with h0
  · rw [Int.floor_eq_iff]
    refine ⟨?_, by exact_mod_cast h2⟩
    rcases h3 with h3 | h3
    · exact_mod_cast h3
    · subst h3; exact_mod_cast h0
  · have hn : n = 0 := by
      rcases h3 with h3 | h3
      · exfalso
        have : (0 : ℚ) ≤ n := by positivity
        exact h0 (this.trans h3)
      · exact h3
    subst hn
    rw [Int.ceil_eq_iff]
    push Not at h0
    refine ⟨?_, ?_⟩
    · push_cast; linarith
    · push_cast; linarith

theorem truncatesTo_of {q : ℚ} {n : Nat} (h : trunc q = n) : TruncatesTo q n := by
  unfold trunc at h
  split_ifs at h with h0
  · rw [Int.floor_eq_iff] at h
    push_cast at h
    exact ⟨by linarith, h.2, Or.inl h.1⟩
  · push Not at h0
    rw [Int.ceil_eq_iff] at h
    push_cast at h
    have hn : n = 0 := by
      by_contra hne
      have : (1 : ℚ) ≤ n := by exact_mod_cast Nat.one_le_iff_ne_zero.2 hne
      linarith [h.1]
    subst hn
    push_cast at h ⊢
    exact ⟨by linarith [h.1], by linarith, Or.inr rfl⟩

/-- Pixel of marker `k`. -/
def mpos (ms : List (Dbl × Dbl)) (k : Nat) : Pix :=
  match ms[k]? with
  | some (.fin x, .fin y) => ((trunc x).toNat, (trunc y).toNat)
  | _ => (0, 0)

theorem mpos_of {ms : List (Dbl × Dbl)} {k : Nat} {p : Pix} (h : MarkerAt ms k p) :
    k < ms.length ∧ mpos ms k = p := by
  obtain ⟨m, hm, x, y, rfl, hx, hy⟩ := h
  have hk : k < ms.length := by
    by_contra hc
    rw [List.getElem?_eq_none (by omega)] at hm
    cases hm
  refine ⟨hk, ?_⟩
  unfold mpos
  rw [hm]
  simp only
  rw [trunc_of hx, trunc_of hy]
  rfl

section markers
variable {w h : Nat} {ms : List (Dbl × Dbl)}

/-- What a valid marker looks like. -/
theorem marker_at (hms : MarkersInside w h ms) {k : Nat} (hk : k < ms.length) :
    MarkerAt ms k (mpos ms k) ∧ Inside w h (mpos ms k) ∧ ∃ x y, ms[k]? = some (.fin x, .fin y) ∧
      trunc x = ((mpos ms k).1 : Nat) ∧ trunc y = ((mpos ms k).2 : Nat) := by
  have hk' : ms[k]? = some ms[k] := List.getElem?_eq_getElem hk
  obtain ⟨p, hp, hin⟩ := hms ms[k] (List.getElem_mem hk)
  have hat : MarkerAt ms k p := ⟨ms[k], hk', hp⟩
  obtain ⟨_, e⟩ := mpos_of hat
  rw [e]
  refine ⟨hat, hin, ?_⟩
  obtain ⟨x, y, e2, hx, hy⟩ := hp
  exact ⟨x, y, by rw [hk', e2], trunc_of hx, trunc_of hy⟩

theorem castI32_trunc {q : ℚ} {n : Nat} (h : trunc q = n) (hn : n ≤ 2147483647) :
    castI32 q = .ok (n : Int) := by
  unfold castI32
  rw [castInt_ok (by omega) (by omega), h]

theorem badMarkers_ok (hms : MarkersInside w h ms) (hw : w ≤ 2147483647) (hh : h ≤ 2147483647) :
    badMarkers w h ms.length ms = .ok false := by
  unfold badMarkers
  apply Ok.eq
  refine (forBreak_ok (fun _ b => b = false) (fun b => b = false) rfl ?_).mono
    (fun r hr => by rcases hr with hr | hr <;> exact hr)
  intro k _ hk s _
  obtain ⟨_, hin, x, y, e, ex, ey⟩ := marker_at hms (k := k) (by omega)
  obtain ⟨h1, h2⟩ := hin
  rw [rdIn_ok e, ok_bind]
  dsimp only
  rw [castI32_trunc ex (by omega), ok_bind, castI32_trunc ey (by omega), ok_bind,
    i32OfU32_eq (n := w) (by omega), i32OfU32_eq (n := h) (by omega), if_neg (by omega)]
  exact Ok.pure' rfl

theorem mlist_succ (pos : Nat → Pix) (k : Nat) : mlist pos (k + 1) = mlist pos k ++ [mitem pos k] := by
  unfold mlist
  rw [List.range_succ, List.map_append]
  rfl

theorem placeMarkers_ok (hms : MarkersInside w h ms) (hn : w * h ≤ 2147483647) {q : Queue}
    (hq : QRep (w * h) q []) :
    Ok (placeMarkers w ms.length ms ((List.replicate (w * h) (-1)).map some) q) (fun r =>
      r.1 = (lab0 w h (mpos ms) ms.length).map some ∧
      QRep (w * h) r.2 ((mlist (mpos ms) ms.length).take (w * h))) := by
  unfold placeMarkers
  refine forN_ok (fun k (r : Cells Int × Queue) => r.1 = (lab0 w h (mpos ms) k).map some ∧
      QRep (w * h) r.2 ((mlist (mpos ms) k).take (w * h))) ⟨rfl, by simpa [mlist] using hq⟩ ?_
  rintro k hk ⟨labs, q⟩ ⟨e1, hq'⟩
  simp only at e1 hq' ⊢
  subst e1
  obtain ⟨_, hin, x, y, e, ex, ey⟩ := marker_at hms hk
  obtain ⟨hw, hh⟩ := side_lt (w := w) (h := h) (by have := hin.1; omega) (by have := hin.2; omega) hn
  have h1 := hin.1
  have h2 := hin.2
  rw [rdIn_ok e, ok_bind]
  dsimp only
  rw [castI32_trunc ex (by omega), ok_bind, castI32_trunc ey (by omega), ok_bind,
    wsIdx_eq hin.1 hin.2 hn, wrZ_gl (by rw [lab0_len]; exact pix_lt hin), ok_bind]
  refine Ok.bind (enqueue_ok hq' hn _ _ _) fun q'' hq'' => Ok.pure' ⟨?_, ?_⟩
  · simp only
    unfold lab0
    rw [mlist_succ, applyAll_append]
    rfl
  · simp only
    have := qpushAll_qpush (cap := w * h) (l := []) (es := mlist (mpos ms) k)
      (some (mitem (mpos ms) k)) (by simp)
    simp only [qpushAll, List.nil_append, List.length_nil, Nat.sub_zero, Option.toList, qpushO] at this
    rw [mlist_succ, ← this]
    exact hq''

end markers

/-! ### Painting -/

/-- Region of a label. -/
def dec (z : Int) : Option Nat := if z = -1 then none else some (u32OfInt z)

theorem dec_lbl {k : Nat} (h : k < 4294967295) : dec (lbl k) = some k := by
  unfold dec
  rw [if_neg (lbl_ne h)]
  congr 1
  unfold lbl i32OfU32 u32OfInt
  split <;> omega

theorem dec_none {z : Int} (h : dec z = none) : z = -1 := by
  unfold dec at h
  split at h
  · assumption
  · cases h

/-- The colour selected for a label. -/
theorem labelColour {z : Int} (hz : z = -1 ∨ ∃ k, k < 4294967295 ∧ z = lbl k) :
    (if z = -1 then pure (0, 0, 0)
      else if z ≥ 0 ∧ z < 10 then do
        let col ← rdInZ wsColors z
        pure (← rdIn col 0, ← rdIn col 1, ← rdIn col 2)
      else pure (128, 128, 128) : CM (UInt8 × UInt8 × UInt8))
    = .ok (regionByte (dec z) 0, regionByte (dec z) 1, regionByte (dec z) 2) := by
  rcases hz with rfl | ⟨k, hk, rfl⟩
  · rfl
  · rw [if_neg (lbl_ne hk), dec_lbl hk]
    by_cases h10 : k < 10
    · have hl : lbl k = (k : Int) := i32OfU32_eq (by omega)
      rw [hl, if_pos (by omega)]
      have : k = 0 ∨ k = 1 ∨ k = 2 ∨ k = 3 ∨ k = 4 ∨ k = 5 ∨ k = 6 ∨ k = 7 ∨ k = 8 ∨ k = 9 := by
        omega
      rcases this with rfl | rfl | rfl | rfl | rfl | rfl | rfl | rfl | rfl | rfl <;> rfl
    · have hl : ¬ (lbl k ≥ 0 ∧ lbl k < 10) := by
        unfold lbl i32OfU32
        split <;> omega
      rw [if_neg hl]
      obtain ⟨j, rfl⟩ : ∃ j, k = j + 10 := ⟨k - 10, by omega⟩
      rfl

/-- The labelling as a function on pixels. -/
def decL (w : Nat) (lab : List Int) (p : Pix) : Option Nat := dec (lp w lab p)

section paint
variable {w h : Nat} {lab : List Int}

theorem paintLabel_eq {i : Nat} (hi : i < lab.length)
    (hz : gl lab i = -1 ∨ ∃ k, k < 4294967295 ∧ gl lab i = lbl k) (out : Cells UInt8) :
    paintLabel (lab.map some) i out = (do
      let out ← wr out (u32 (i * 4)) (regionByte (dec (gl lab i)) 0)
      let out ← wr out (u32 (u32 (i * 4) + 1)) (regionByte (dec (gl lab i)) 1)
      let out ← wr out (u32 (u32 (i * 4) + 2)) (regionByte (dec (gl lab i)) 2)
      wr out (u32 (u32 (i * 4) + 3)) 255) := by
  unfold paintLabel
  rw [rd_map_some, rdIn_ok (gl_some hi), ok_bind]
  rw [labelColour hz]
  rfl

theorem paintLabels_small (hw : 0 < w) (hl : lab.length = w * h) (h30 : w * h ≤ 1073741824)
    (hz : ∀ i, i < w * h → gl lab i = -1 ∨ ∃ k, k < 4294967295 ∧ gl lab i = lbl k) :
    paintLabels (w * h) (lab.map some) (List.replicate (w * h * 4) none)
      = .ok ((paintRegions w h (decL w lab)).map some) := by
  unfold paintLabels
  rw [forU32_eq (by omega)]
  apply Ok.eq
  refine (Filled.loop (fun i k => ∃ c, c < 4 ∧ k = i * 4 + c)
    (Filled.start' (paintRegions w h (decL w lab)) (by simp [paintRegions, mkImg_length])) ?_).mono ?_
  · intro i hi V t hV
    rw [paintLabel_eq (by omega) (hz i hi), u32_eq (n := i * 4) (by omega),
      u32_eq (n := i * 4 + 1) (by omega), u32_eq (n := i * 4 + 2) (by omega),
      u32_eq (n := i * 4 + 3) (by omega)]
    have hidx : i / w * w + i % w = i := by rw [Nat.mul_comm]; exact Nat.div_add_mod i w
    have hx : i % w < w := Nat.mod_lt _ hw
    have hy : i / w < h := (Nat.div_lt_iff_lt_mul hw).2 (by rw [Nat.mul_comm h w]; exact hi)
    have ho : ∀ c, c < 4 → (paintRegions w h (decL w lab))[i * 4 + c]?
        = some (regionByte (dec (gl lab i)) c) := by
      intro c hc
      have := mkImg_getElem? (w := w) (h := h) (ch := 4)
        (f := fun x y c => regionByte (decL w lab (x, y)) c) hx hy hc
      rw [hidx] at this
      rw [paintRegions, this]
      unfold decL lp
      simp only [hidx]
    refine Ok.bind (hV.wr (k := i * 4) (ho 0 (by omega))) fun s1 h1 => ?_
    refine Ok.bind (h1.wr (ho 1 (by omega))) fun s2 h2 => ?_
    refine Ok.bind (h2.wr (ho 2 (by omega))) fun s3 h3 => ?_
    refine (h3.wr (k := i * 4 + 3) (ho 3 (by omega))).mono fun s4 h4 => h4.mono ?_
    rintro k _ (h | ⟨c, hc, rfl⟩)
    · exact Or.inl (Or.inl (Or.inl (Or.inl h)))
    · have : c = 0 ∨ c = 1 ∨ c = 2 ∨ c = 3 := by omega
      rcases this with rfl | rfl | rfl | rfl
      · exact Or.inl (Or.inl (Or.inl (Or.inr rfl)))
      · exact Or.inl (Or.inl (Or.inr rfl))
      · exact Or.inl (Or.inr rfl)
      · exact Or.inr rfl
  · intro s hs
    refine hs.done fun k hk => ?_
    rw [paintRegions, mkImg_length] at hk
    obtain ⟨i, c, hi, hc, rfl⟩ := idx2_surj (n := w * h) (ch := 4) hk
    exact Or.inr ⟨i, hi, c, hc, rfl⟩

/-- Beyond `2^30` pixels the 32-bit index wraps: the bytes from `2^32` on are never written. -/
theorem paintLabels_large (hl : lab.length = w * h) (h30 : 1073741824 < w * h)
    (h31 : w * h < 4294967296)
    (hz : ∀ i, i < w * h → gl lab i = -1 ∨ ∃ k, k < 4294967295 ∧ gl lab i = lbl k) :
    ∃ c, paintLabels (w * h) (lab.map some) (List.replicate (w * h * 4) none) = .ok c ∧
      c[4294967296]? = some none := by
  unfold paintLabels
  rw [forU32_eq (by omega)]
  have hwr : ∀ (t : Cells UInt8) n v, t.length = w * h * 4 → t[4294967296]? = some none →
      Ok (wr t (u32 n) v) (fun t' => t'.length = w * h * 4 ∧ t'[4294967296]? = some none) := by
    intro t n v h1 h2
    have := u32_lt n
    rw [wr_ok (by omega)]
    refine Ok.pure ⟨by simpa using h1, ?_⟩
    rw [List.getElem?_set_ne (by omega)]
    exact h2
  have := forN_ok (n := w * h) (s := List.replicate (w * h * 4) (none : Option UInt8))
    (body := fun i out => paintLabel (lab.map some) i out)
    (fun _ t => t.length = w * h * 4 ∧ t[4294967296]? = some none)
    ⟨by simp, by rw [List.getElem?_replicate, if_pos (by omega)]⟩ ?_
  · obtain ⟨c, e, _, h2⟩ := this
    exact ⟨c, e, h2⟩
  · intro i hi t ht
    rw [paintLabel_eq (by omega) (hz i hi)]
    refine Ok.bind (hwr _ _ _ ht.1 ht.2) fun t1 h1 => ?_
    refine Ok.bind (hwr _ _ _ h1.1 h1.2) fun t2 h2 => ?_
    refine Ok.bind (hwr _ _ _ h2.1 h2.2) fun t3 h3 => ?_
    exact hwr _ _ _ h3.1 h3.2

end paint

/-! ### The call -/

theorem init_labels {n : Nat} (hn : n < 4294967296) :
    forU32 n (List.replicate n (none : Option Int)) (fun i l => wr l i (-1))
      = .ok ((List.replicate n (-1)).map some) := by
  rw [forU32_eq (by omega)]
  apply Ok.eq
  refine (Filled.loop (fun i k => k = i) (Filled.start' (List.replicate n (-1 : Int)) (by simp)) ?_).mono ?_
  · intro i hi V t hV
    exact hV.wr (by rw [List.getElem?_replicate, if_pos hi])
  · intro s hs
    exact hs.done fun k hk => Or.inr ⟨k, by simpa using hk, rfl⟩

theorem watershed_core {P : Plat} {w h : Nat} {d : List UInt8} {ms : List (Dbl × Dbl)} (bd : Bool)
    (im : Img P w h 1 d) (hms : MarkersInside w h ms) (hN0 : 0 < ms.length)
    (hN : ms.length < 4294967296) (hn : w * h ≤ 2147483647) (hsz : w * h * 12 ≤ P.szMax) :
    ∃ lab, FInv w h d bd ms.length (mpos ms) 256 lab ∧ wsExps w h d bd 255 lab (w * h) = [] ∧
      ∀ hp, Returns (fcv_watershed_segmentation P w h (some d) (some ms) ms.length bd) hp (fun c =>
        (w * h ≤ 1073741824 → c = (paintRegions w h (decL w lab)).map some) ∧
        (1073741824 < w * h → c[4294967296]? = some none)) := by
  obtain ⟨hw, hh, uw, uh, hd, hs⟩ := im
  rw [Nat.mul_one] at hd
  obtain ⟨hw31, hh31⟩ := side_lt hw hh hn
  have hnpos : 0 < w * h := Nat.mul_pos hw hh
  have hpos : ∀ k, k < ms.length → Inside w h (mpos ms k) := fun k hk => (marker_at hms hk).2.1
  obtain ⟨⟨labs0, q0⟩, e0, e0', hq0⟩ := placeMarkers_ok hms hn (newQueue_rep hnpos hn)
  simp only at e0' hq0
  subst e0'
  obtain ⟨⟨labs, q1⟩, e1, lab, e1', _, hI, hend⟩ :=
    floodLevels_ok (d := d) (bd := bd) hw hn hd hpos hN hq0
  simp only at e1'
  subst e1'
  refine ⟨lab, hI, hend, ?_⟩
  have hz : ∀ i, i < w * h → gl lab i = -1 ∨ ∃ k, k < 4294967295 ∧ gl lab i = lbl k := by
    intro i hi
    by_cases hne : gl lab i = -1
    · exact Or.inl hne
    · right
      have hidx : i / w * w + i % w = i := by rw [Nat.mul_comm]; exact Nat.div_add_mod i w
      obtain ⟨k, _, hk, _, e, _⟩ := hI.grown (i % w, i / w)
        ⟨Nat.mod_lt _ hw, (Nat.div_lt_iff_lt_mul hw).2 (by rw [Nat.mul_comm h w]; exact hi)⟩
        (by unfold lp; simp only [hidx]; exact hne)
      unfold lp at e
      simp only [hidx] at e
      exact ⟨k, by omega, e⟩
  obtain ⟨c, ec, hc1, hc2⟩ : ∃ c, paintLabels (w * h) (lab.map some)
      (List.replicate (w * h * 4) none) = .ok c ∧
      (w * h ≤ 1073741824 → c = (paintRegions w h (decL w lab)).map some) ∧
      (1073741824 < w * h → c[4294967296]? = some none) := by
    by_cases h30 : w * h ≤ 1073741824
    · exact ⟨_, paintLabels_small hw hI.len h30 hz, fun _ => rfl, fun h => absurd h (by omega)⟩
    · obtain ⟨c, e, hc⟩ := paintLabels_large hI.len (by omega) (by omega) hz
      exact ⟨c, e, fun h => absurd h h30, fun _ => hc⟩
  intro hp
  have hg1 : ¬ w > P.szMax / h := P.guard_of_mul_le hh (by omega)
  have ez : P.sz (w * h) = w * h := P.sz_eq' (by omega)
  have hg2 : ¬ w * h > P.szMax / 4 := P.guard_of_mul_le (by omega) (by omega)
  have ez2 : P.sz (w * h * 4) = w * h * 4 := P.sz_eq' (by omega)
  have hg3 : ¬ (w * h = 0 ∨ w * h > P.szMax / 12 ∨ w * h > 2147483647) := by
    have := P.guard_of_mul_le (a := w * h) (b := 12) (by omega) hsz
    omega
  have hN0' : ¬ ms.length = 0 := by omega
  have hwh : ¬ (w = 0 ∨ h = 0) := by omega
  have hbad : use [] (badMarkers w h ms.length ms) hp = .ok (false, hp) := by
    rw [badMarkers_ok hms hw31 hh31]
    simp [use, Except.map]
  have ei := init_labels (n := w * h) (by omega)
  rw [List.map_replicate] at e0 ei
  generalize hn' : w * h = n at *
  unfold Returns HOk fcv_watershed_segmentation
  simp only [hN0', hwh, if_false]
  rw [hm_bind, hbad]
  simp only [Bool.false_eq_true, if_false, hg1, hn', ez, hg2, ez2]
  by_cases f0 : hp.fails hp.next = true
  · refine ⟨none, { hp with next := hp.next + 1 }, ?_, ?_⟩
    · simp [hm_bind, malloc, f0]
    · exact ⟨rfl, rfl, by simp, hp.next, by simp, by simp, f0⟩
  simp only [Bool.not_eq_true] at f0
  by_cases f1 : hp.fails (hp.next + 1) = true
  · refine ⟨none, { hp with next := hp.next + 2 }, ?_, ?_⟩
    · simp [hm_bind, malloc, free, f0, f1]
    · exact ⟨rfl, rfl, by simp, hp.next + 1, by simp, by simp, f1⟩
  simp only [Bool.not_eq_true] at f1
  by_cases f2 : hp.fails (hp.next + 2) = true
  · refine ⟨none, { hp with next := hp.next + 3 }, ?_, ?_⟩
    · simp [hm_bind, malloc, free, use, f0, f1, f2, ei, hg3, Except.map]
    · exact ⟨rfl, rfl, by simp, hp.next + 2, by simp, by simp, f2⟩
  simp only [Bool.not_eq_true] at f2
  by_cases f3 : hp.fails (hp.next + 3) = true
  · refine ⟨none, { hp with next := hp.next + 4 }, ?_, ?_⟩
    · simp [hm_bind, malloc, free, use, f0, f1, f2, f3, ei, hg3, Except.map]
    · exact ⟨rfl, rfl, by simp, hp.next + 3, by simp, by simp, f3⟩
  simp only [Bool.not_eq_true] at f3
  refine ⟨some ⟨hp.next, c⟩, { hp with next := hp.next + 4, live := hp.next :: hp.live }, ?_,
    ⟨rfl, rfl, by simp, by simp⟩, hc1, hc2⟩
  simp [hm_bind, malloc, free, use, f0, f1, f2, f3, ei, hg3, e0, e1, ec, Except.map]

end FlatCV
