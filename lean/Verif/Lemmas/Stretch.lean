import Verif.Lemmas.Hist

namespace FlatCV
open Model Spec

theorem mapFirst_get (n : Nat) (f : UInt8 → UInt8) (d : List UInt8) (k : Nat) :
    (mapFirst n f d)[k]? = if k < n then d[k]?.map f else d[k]? := by
  unfold mapFirst
  by_cases hk : k < n
  · rw [if_pos hk]
    by_cases hd : k < d.length
    · rw [List.getElem?_append_left (by simp; omega), List.getElem?_map, List.getElem?_take,
        if_pos hk]
    · rw [List.getElem?_eq_none (by simp; omega), List.getElem?_eq_none (by omega)]; rfl
  · rw [if_neg hk]
    by_cases hd : k < d.length
    · rw [List.getElem?_append_right (by simp; omega), List.getElem?_drop]
      congr 1
      simp
      omega
    · rw [List.getElem?_eq_none (by simp; omega), List.getElem?_eq_none (by omega)]

@[simp] theorem mapFirst_length (n : Nat) (f : UInt8 → UInt8) (d : List UInt8) :
    (mapFirst n f d).length = d.length := by simp [mapFirst]; omega

theorem mapFirst_all (n : Nat) (f : UInt8 → UInt8) (d : List UInt8) (h : d.length ≤ n) :
    mapFirst n f d = d.map f := by
  unfold mapFirst
  rw [List.take_of_length_le h, List.drop_of_length_le h, List.append_nil]

/-- In-place update of the first `n` bytes. -/
theorem inplace_ok {n : Nat} {d : List UInt8} {f : UInt8 → UInt8}
    {body : Nat → Cells UInt8 → CM (Cells UInt8)} (hn : n ≤ d.length)
    (hb : ∀ i (s : Cells UInt8) v, i < n → s[i]? = some (some v) →
      body i s = .ok (s.set i (some (f v)))) :
    forN n (d.map some) body = .ok ((mapFirst n f d).map some) := by
  apply Ok.eq
  refine forN_ok (fun i s => s = (mapFirst i f d).map some) (by simp [mapFirst]) ?_
  rintro i hi s rfl
  have hg : ((mapFirst i f d).map some)[i]? = some (some d[i]) := by
    rw [List.getElem?_map, mapFirst_get]
    simp
  rw [hb i _ _ hi hg]
  refine Ok.pure ?_
  apply List.ext_getElem?
  intro k
  rw [List.getElem?_set, List.getElem?_map, List.getElem?_map, mapFirst_get, mapFirst_get]
  by_cases e : i = k
  · subst e
    have : i < d.length := by omega
    simp [this]
  · simp only [e, if_false]
    by_cases h1 : k < i
    · rw [if_pos h1, if_pos (by omega)]
    · rw [if_neg h1, if_neg (by omega)]

theorem threshold_ok {n : Nat} {d : List UInt8} {t : UInt8} (hn : n ≤ d.length) :
    fcv_apply_global_threshold n (d.map some) t
      = .ok ((mapFirst n (Spec.threshold t) d).map some) := by
  unfold fcv_apply_global_threshold
  apply inplace_ok hn
  intro i s v _ hv
  have hl : i < s.length := by
    rcases Nat.lt_or_ge i s.length with h | h
    · exact h
    · rw [List.getElem?_eq_none h] at hv; cases hv
  rw [rd_ok hv]
  simp only [ok_bind]
  rw [wr_ok hl]
  rfl

theorem double_threshold_ok {n : Nat} {d : List UInt8} {lo hi : UInt8} (hn : n ≤ d.length)
    (hlt : lo ≠ hi) :
    apply_double_threshold n (d.map some) lo hi
      = .ok ((mapFirst n (Spec.ramp lo.toNat hi.toNat) d).map some) := by
  unfold apply_double_threshold
  apply inplace_ok hn
  intro i s v _ hv
  have hl : i < s.length := by
    rcases Nat.lt_or_ge i s.length with h | h
    · exact h
    · rw [List.getElem?_eq_none h] at hv; cases hv
  rw [rd_ok hv]
  simp only [ok_bind]
  have hne : lo.toNat ≠ hi.toNat := fun h => hlt (UInt8.toNat_inj.1 h)
  unfold Spec.ramp
  simp only [UInt8.lt_iff_toNat_lt, GT.gt]
  by_cases h1 : v.toNat < lo.toNat
  · simp only [h1, if_true]; rw [wr_ok hl]
  · simp only [h1, if_false]
    by_cases h2 : hi.toNat < v.toNat
    · simp only [h2, if_true]; rw [wr_ok hl]
    · have h3 : ¬ hi.toNat - lo.toNat = 0 := by omega
      simp only [h2, h3, if_false]; rw [wr_ok hl]; rfl

/-- The pure parts of the contrast stretch. -/
theorem stretch_gray_loop {n : Nat} {d : List UInt8} (hd : d.length = n * 4)
    (h32 : n * 4 ≤ 4294967296) :
    forU32 n (List.replicate n none) (fun i g => do
      let v ← getLuma d (u32 (i * 4))
      wr g i v) = .ok ((Spec.gray n d).map some) := by
  rw [forU32_eq (by omega)]
  apply Ok.eq
  refine (Filled.loop (fun i k => k = i) (Filled.start' (Spec.gray n d) (by simp)) ?_).mono ?_
  · intro i hi V t hV
    rw [getLuma_ok hd hi h32]
    exact hV.wr (gray_getElem? hi)
  · intro s hs
    exact hs.done fun k hk => Or.inr ⟨k, by simpa using hk, rfl⟩

theorem stretch_out_loop {n low high : Nat} {d : List UInt8} (hd : d.length = n * 4)
    (h32 : n * 4 ≤ 4294967296) (hl : low ≤ high) (hh : high < 256) :
    forN n (List.replicate (n * 4) none) (fun i o => do
      let rgba_index := u32 (i * 4)
      let gray ← getLuma d rgba_index
      let gray ← stretchByte low high gray
      putGray o rgba_index gray)
      = .ok ((Spec.grayRGBA n fun i => Spec.stretch low high (Spec.lumaAt d i)).map some) := by
  apply Ok.eq
  refine (Filled.loop (fun i k => ∃ c, c < 4 ∧ k = i * 4 + c)
    (Filled.start' (Spec.grayRGBA n fun i => Spec.stretch low high (Spec.lumaAt d i))
      (by simp)) ?_).mono ?_
  · intro i hi V t hV
    simp only [getLuma_ok hd hi h32, ok_bind, stretchByte_eq hl hh]
    exact putGray_filled (v := fun i => Spec.stretch low high (Spec.lumaAt d i)) hV hi h32
  · intro s hs
    refine hs.done fun k hk => ?_
    obtain ⟨i, c, hi, hc, rfl⟩ := idx2_surj (n := n) (ch := 4) (by simpa using hk)
    exact Or.inr ⟨i, hi, c, hc, rfl⟩

theorem stretch_returns_core (P : Plat) (w h : Nat) (d : List UInt8) (hp : Heap)
    (hw : 0 < w) (hh : 0 < h) (hd : d.length = w * h * 4) (hsz : w * h * 4 ≤ P.szMax)
    (h32 : w * h * 4 ≤ 4294967296) :
    ∃ low high, IsLow (w * h) (lumaAt d) low ∧ IsHigh (w * h) (lumaAt d) high ∧
    Returns (fcv_grayscale_stretch P w h (some d)) hp
      (fun c => c = (Spec.grayRGBA (w * h) fun i => stretch low high (lumaAt d i)).map some) := by
  have hpos : 0 < w * h := Nat.mul_pos hw hh
  obtain ⟨low, elow, hlow⟩ := findMin_ok (n := w * h) (v := lumaAt d) (by omega) hpos
  obtain ⟨high, ehigh, hhigh⟩ := findMax_ok (n := w * h) (v := lumaAt d) (by omega) hpos
  refine ⟨low, high, hlow, hhigh, ?_⟩
  have hle := low_le_high hlow hhigh hpos
  have hg1 : ¬ w > P.szMax / h := P.guard_of_mul_le hh (by omega)
  have e1 : P.sz (w * h) = w * h := P.sz_eq' (by omega)
  have hg2 : ¬ w * h > P.szMax / 4 := P.guard_of_mul_le (by omega) (by omega)
  have e2 : P.sz (w * h * 4) = w * h * 4 := P.sz_eq' hsz
  have ehist : histogramLoop (w * h) ((Spec.gray (w * h) d).map some)
      = .ok (histOf (w * h) (lumaAt d)) := by
    refine histogramLoop_ok (fun i hi => ?_) (by omega)
    rw [List.getElem?_map, gray_getElem? hi]; rfl
  unfold Returns HOk fcv_grayscale_stretch
  simp only [Nat.ne_of_gt hw, Nat.ne_of_gt hh, or_self, if_false, hg1, e1, hg2, e2,
    u32_eq (n := w * h / 64) (by omega)]
  by_cases f0 : hp.fails hp.next = true
  · refine ⟨none, { hp with next := hp.next + 1 }, ?_, ?_⟩
    · simp [hm_bind, malloc, f0]
    · exact ⟨rfl, rfl, by simp, hp.next, by simp, by simp, f0⟩
  · simp only [Bool.not_eq_true] at f0
    by_cases f1 : hp.fails (hp.next + 1) = true
    · refine ⟨none, { hp with next := hp.next + 2 }, ?_, ?_⟩
      · simp [hm_bind, malloc, free, f0, f1]
      · exact ⟨rfl, rfl, by simp, hp.next + 1, by simp, by simp, f1⟩
    · simp only [Bool.not_eq_true] at f1
      refine ⟨some ⟨hp.next, (Spec.grayRGBA (w * h) fun i =>
          stretch low high (lumaAt d i)).map some⟩,
        { hp with next := hp.next + 2, live := hp.next :: hp.live }, ?_, ⟨rfl, rfl, by simp, by simp⟩,
        rfl⟩
      have l1 := stretch_gray_loop hd h32
      have l2 := stretch_out_loop hd h32 hle hhigh.1
      simp [hm_bind, malloc, free, use, f0, f1, l1, l2, ehist, elow, ehigh, Except.map]

end FlatCV
