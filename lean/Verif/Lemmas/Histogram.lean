import Verif.Model.Histogram
import Verif.Spec.Histogram
import Verif.Spec.Call
import Verif.Lemmas.Hist

namespace FlatCV
open Model Spec

/-- A histogram table with entries `f`. -/
def tab (f : Nat → Nat) : Cells Nat := (List.range 256).map fun l => some (f l)

theorem tab_get {f : Nat → Nat} {l : Nat} (hl : l < 256) : (tab f)[l]? = some (some (f l)) := by
  simp [tab, hl]

theorem tab_length (f : Nat → Nat) : (tab f).length = 256 := by simp [tab]

theorem tab_congr {f g : Nat → Nat} (h : ∀ l, l < 256 → f l = g l) : tab f = tab g := by
  unfold tab
  apply List.map_congr_left
  intro l hl
  rw [h l (List.mem_range.1 hl)]

theorem zeroHist_eq : zeroHist = tab fun _ => 0 := by
  unfold zeroHist tab
  apply List.ext_getElem?
  intro k
  by_cases hk : k < 256
  · rw [List.getElem?_replicate, if_pos hk, List.getElem?_map, List.getElem?_range hk]
    rfl
  · rw [List.getElem?_eq_none (by rw [List.length_replicate]; omega),
      List.getElem?_eq_none (by rw [List.length_map, List.length_range]; omega)]

theorem bump_ok (f : Nat → Nat) (v : UInt8) :
    bump (tab f) v = .ok (tab fun l => if v.toNat = l then u32 (f l + 1) else f l) := by
  have hlt := v.toNat_lt
  unfold bump
  rw [rd_ok (tab_get hlt)]
  simp only [ok_bind]
  rw [wr_ok (by rw [tab_length]; exact hlt)]
  congr 1
  apply List.ext_getElem?
  intro k
  by_cases hk : k < 256
  · rw [tab_get hk, List.getElem?_set, tab_length]
    by_cases e : v.toNat = k
    · subst e; simp [hk]
    · simp [e, tab_get hk]
  · rw [List.getElem?_eq_none (by rw [List.length_set, tab_length]; omega),
      List.getElem?_eq_none (by rw [tab_length]; omega)]

/-- The wrapped histogram of the first `i` values. -/
def cnt (v : Nat → UInt8) (i l : Nat) : Nat := u32 (countP i fun j => (v j).toNat == l)

theorem cnt_zero (v : Nat → UInt8) : cnt v 0 = fun _ => 0 := by
  funext l; simp [cnt, u32]

theorem bump_cnt (v : Nat → UInt8) (i : Nat) :
    bump (tab (cnt v i)) (v i) = .ok (tab (cnt v (i + 1))) := by
  rw [bump_ok]
  congr 1
  apply tab_congr
  intro l _
  unfold cnt
  rw [countP_succ]
  by_cases e : (v i).toNat = l
  · simp only [e, if_true, beq_self_eq_true]; unfold u32; omega
  · simp [e]

variable {P : Plat} {n ch : Nat} {d : List UInt8}

theorem histIsGray_ok (hd : d.length = n * ch) (hs : d.length ≤ P.szMax) :
    histIsGray P n ch d = .ok (decide (IsGrayImg n ch d)) := by
  unfold histIsGray
  by_cases h4 : ch = 4
  · subst h4
    rw [if_pos rfl]
    apply Ok.eq
    refine (forBreak_ok
      (fun i (b : Bool) => b = true ∧ ∀ j, j < i → px1 4 d j 0 = px1 4 d j 1 ∧ px1 4 d j 0 = px1 4 d j 2)
      (fun b => b = false ∧ ¬ IsGrayImg n 4 d) ⟨rfl, fun j hj => by omega⟩ ?_).mono ?_
    · rintro i _ hi b ⟨rfl, hb⟩
      have hi' : i < n := by omega
      have b0 : i * 4 + 4 ≤ P.szMax := by omega
      have r0 := rdIn_ok (getElem?_px1 hd hi' (c := 0) (by omega))
      have r1 := rdIn_ok (getElem?_px1 hd hi' (c := 1) (by omega))
      have r2 := rdIn_ok (getElem?_px1 hd hi' (c := 2) (by omega))
      rw [Nat.add_zero] at r0
      dsimp only
      rw [P.sz_eq' (show i * 4 ≤ _ by omega), P.sz_eq' (show i * 4 + 1 ≤ _ by omega),
        P.sz_eq' (show i * 4 + 2 ≤ _ by omega), r0, r1, r2]
      simp only [ok_bind]
      by_cases e1 : px1 4 d i 0 = px1 4 d i 1
      · simp only [e1, ne_eq, not_true_eq_false, if_false]
        by_cases e2 : px1 4 d i 1 = px1 4 d i 2
        · rw [if_neg (by simp [e2])]
          refine Ok.pure' ⟨rfl, fun j hj => ?_⟩
          by_cases e : j = i
          · subst e; exact ⟨e1, e1.trans e2⟩
          · exact hb j (by omega)
        · rw [if_pos e2]
          refine Ok.pure' ⟨rfl, ?_⟩
          rintro (h | ⟨_, h⟩)
          · omega
          · exact e2 (e1 ▸ (h i hi').2)
      · rw [if_pos e1]
        refine Ok.pure' ⟨rfl, ?_⟩
        rintro (h | ⟨_, h⟩)
        · omega
        · exact e1 (h i hi').1
    · rintro b (⟨rfl, h⟩ | ⟨rfl, h⟩)
      · simp [h]
      · have : IsGrayImg n 4 d := Or.inr ⟨rfl, fun j hj => h j (by omega)⟩
        simp [this]
  · rw [if_neg h4]
    have : IsGrayImg n ch d ↔ ch = 1 := by simp [IsGrayImg, h4]
    simp [this]
    rfl

theorem histGray_ok (hd : d.length = n * ch) (hs : d.length ≤ P.szMax) (hch : ch = 1 ∨ ch = 4) :
    histGray P n ch d = .ok (tab (cnt (fun i => px1 ch d i 0) n)) := by
  unfold histGray
  apply Ok.eq
  refine (forN_ok (fun i s => s = tab (cnt (fun i => px1 ch d i 0) i)) ?_ ?_)
  · rw [zeroHist_eq, cnt_zero]
  · rintro i hi s rfl
    have r0 := rdIn_ok (getElem?_px1 hd hi (c := 0) (by omega))
    have hb := idx2_lt hi (show 0 < ch by omega)
    rw [Nat.add_zero] at r0 hb
    rcases hch with rfl | rfl
    · rw [if_pos rfl]
      rw [Nat.mul_one] at r0
      rw [r0]
      exact Ok.of_eq (bump_cnt (fun i => px1 1 d i 0) i) rfl
    · rw [if_neg (by omega), P.sz_eq' (by omega), r0]
      exact Ok.of_eq (bump_cnt (fun i => px1 4 d i 0) i) rfl

/-- The tables of a colour image. -/
def rgbTab (ch : Nat) (d : List UInt8) (i c : Nat) : Cells Nat :=
  tab fun l => if c = 0 ∨ 3 ≤ ch then cnt (fun i => px1 ch d i c) i l else 0

theorem histRGB_ok (hd : d.length = n * ch) (hs : d.length ≤ P.szMax) (hch : 0 < ch) :
    histRGB P n ch d = .ok (rgbTab ch d n 0, rgbTab ch d n 1, rgbTab ch d n 2) := by
  unfold histRGB
  apply Ok.eq
  refine (forN_ok (fun i s => s = (rgbTab ch d i 0, rgbTab ch d i 1, rgbTab ch d i 2)) ?_ ?_)
  · have : ∀ c, rgbTab ch d 0 c = zeroHist := by
      intro c; rw [zeroHist_eq]; unfold rgbTab; simp [cnt_zero]
    rw [this, this, this]
  · rintro i hi s rfl
    have hb := idx2_lt hi (show ch - 1 < ch by omega)
    have r0 := rdIn_ok (getElem?_px1 hd hi (c := 0) (by omega))
    rw [Nat.add_zero] at r0
    simp only
    rw [P.sz_eq' (show i * ch ≤ _ by omega), r0]
    simp only [ok_bind]
    by_cases h3 : 3 ≤ ch
    · have r1 := rdIn_ok (getElem?_px1 hd hi (c := 1) (by omega))
      have r2 := rdIn_ok (getElem?_px1 hd hi (c := 2) (by omega))
      rw [P.sz_eq' (show i * ch + 1 ≤ _ by omega), P.sz_eq' (show i * ch + 2 ≤ _ by omega), r1, r2]
      have e : ∀ c, rgbTab ch d i c = tab (cnt (fun i => px1 ch d i c) i) ∧
          rgbTab ch d (i + 1) c = tab (cnt (fun i => px1 ch d i c) (i + 1)) := by
        intro c; constructor <;> (unfold rgbTab; simp [h3])
      rw [(e 0).1, (e 0).2, (e 1).1, (e 1).2, (e 2).1, (e 2).2]
      have b0 := bump_cnt (fun i => px1 ch d i 0) i
      have b1 := bump_cnt (fun i => px1 ch d i 1) i
      have b2 := bump_cnt (fun i => px1 ch d i 2) i
      rw [b0]
      simp only [ok_bind, ge_iff_le, h3, if_true]
      rw [b1]
      simp only [ok_bind]
      rw [b2]
      exact Ok.pure' rfl
    · have b0 := bump_cnt (fun i => px1 ch d i 0) i
      have e : ∀ j, rgbTab ch d j 0 = tab (cnt (fun i => px1 ch d i 0) j) := by
        intro j; unfold rgbTab; simp
      have e1 : ∀ c, c ≠ 0 → ∀ j, rgbTab ch d j c = tab fun _ => 0 := by
        intro c hc j; unfold rgbTab; simp [hc, h3]
      rw [e i, e (i + 1), e1 1 (by omega), e1 2 (by omega), e1 1 (by omega) (i + 1),
        e1 2 (by omega) (i + 1), b0]
      simp only [ok_bind, ge_iff_le, h3, if_false]
      exact Ok.pure' rfl

theorem maxStep_ok (f : Nat → Nat) {i : Nat} (hi : i < 256) (m : Nat) :
    maxStep (tab f) i m = .ok (max m (f i)) := by
  unfold maxStep
  rw [rd_ok (tab_get hi)]
  simp only [ok_bind]
  by_cases h : f i > m
  · rw [if_pos h, Nat.max_eq_right (by omega)]
  · rw [if_neg h, Nat.max_eq_left (by omega)]; rfl

theorem maxGray_ok (f : Nat → Nat) :
    Ok (maxGray (tab f)) (IsMaxBar fun _ v => f v) := by
  unfold maxGray
  refine (forN_ok (fun i m => (∀ v, v < i → f v ≤ m) ∧ (m = 0 ∨ ∃ v, v < i ∧ f v = m))
    ⟨fun v hv => by omega, Or.inl rfl⟩ ?_).mono ?_
  · rintro i hi m ⟨h1, h2⟩
    refine Ok.of_eq (maxStep_ok f hi m) ⟨fun v hv => ?_, ?_⟩
    · by_cases e : v = i
      · subst e; omega
      · have := h1 v (by omega); omega
    · rcases Nat.le_total m (f i) with h | h
      · exact Or.inr ⟨i, by omega, by omega⟩
      · rw [Nat.max_eq_left h]
        rcases h2 with h2 | ⟨v, hv, e⟩
        · exact Or.inl h2
        · exact Or.inr ⟨v, by omega, e⟩
  · rintro m ⟨h1, h2⟩
    refine ⟨fun c v _ hv => h1 v hv, ?_⟩
    rcases h2 with rfl | ⟨v, hv, e⟩
    · exact ⟨0, 0, by omega, by omega, Nat.le_zero.1 (h1 0 (by omega))⟩
    · exact ⟨0, v, by omega, hv, e⟩

theorem maxRGB_ok (F : Nat → Nat → Nat) (h0 : 3 ≤ ch ∨ ∀ c v, c ≠ 0 → F c v = 0) :
    Ok (maxRGB ch (tab (F 0)) (tab (F 1)) (tab (F 2))) (IsMaxBar F) := by
  unfold maxRGB
  refine (forN_ok (fun i m => (∀ c v, c < 3 → v < i → F c v ≤ m) ∧
    (m = 0 ∨ ∃ c v, c < 3 ∧ v < i ∧ F c v = m)) ⟨fun c v _ hv => by omega, Or.inl rfl⟩ ?_).mono ?_
  · rintro i hi m ⟨h1, h2⟩
    refine Ok.mono (P := fun r => r = max (max (max m (F 0 i)) (F 1 i)) (F 2 i)) ?_ ?_
    · rw [maxStep_ok _ hi]
      simp only [ok_bind]
      by_cases h3 : ch ≥ 3
      · rw [if_pos h3, maxStep_ok _ hi]
        simp only [ok_bind]
        rw [maxStep_ok _ hi]
        exact Ok.pure rfl
      · rw [if_neg h3]
        rcases h0 with h0 | h0
        · omega
        · rw [h0 1 i (by omega), h0 2 i (by omega)]
          exact Ok.pure' (by omega)
    · rintro r rfl
      refine ⟨fun c v hc hv => ?_, ?_⟩
      · by_cases e : v = i
        · subst e
          have : c = 0 ∨ c = 1 ∨ c = 2 := by omega
          rcases this with rfl | rfl | rfl <;> omega
        · have := h1 c v hc (by omega); omega
      · by_cases a2 : max (max (max m (F 0 i)) (F 1 i)) (F 2 i) = F 2 i
        · exact Or.inr ⟨2, i, by omega, by omega, a2.symm⟩
        by_cases a1 : max (max (max m (F 0 i)) (F 1 i)) (F 2 i) = F 1 i
        · exact Or.inr ⟨1, i, by omega, by omega, a1.symm⟩
        by_cases a0 : max (max (max m (F 0 i)) (F 1 i)) (F 2 i) = F 0 i
        · exact Or.inr ⟨0, i, by omega, by omega, a0.symm⟩
        have : max (max (max m (F 0 i)) (F 1 i)) (F 2 i) = m := by omega
        rw [this]
        rcases h2 with h2 | ⟨c, v, hc, hv, e⟩
        · exact Or.inl h2
        · exact Or.inr ⟨c, v, hc, by omega, e⟩
  · rintro m ⟨h1, h2⟩
    refine ⟨fun c v hc hv => h1 c v hc hv, ?_⟩
    rcases h2 with rfl | h2
    · exact ⟨0, 0, by omega, by omega, Nat.le_zero.1 (h1 0 0 (by omega) (by omega))⟩
    · exact h2

/-! ### Drawing -/

theorem barChart_get {H : Nat → Nat → Nat} {v y c : Nat} (hv : v < 256) (hy : y < 200) (hc : c < 4) :
    (barChart H)[(y * 256 + v) * 4 + c]? =
      some (if c = 3 ∨ 199 - y < H c v then 255 else 0) := mkImg_getElem? hv hy hc

/-- Positions of the pixel in column `x`, `y` rows from the bottom. -/
def barPos (x y k : Nat) : Prop := ∃ c, c < 4 ∧ k = ((199 - y) * 256 + x) * 4 + c

theorem barPixel_ok {H : Nat → Nat → Nat} {x y : Nat} {r g b : UInt8} (hx : x < 256) (hy : y < 200)
    (hr : r = if y < H 0 x then 255 else 0) (hg : g = if y < H 1 x then 255 else 0)
    (hb : b = if y < H 2 x then 255 else 0) {V : Nat → Prop} {t : Cells UInt8}
    (ht : Filled (barChart H) V t) :
    Ok (barPixel x y r g b t) (Filled (barChart H) (fun k => V k ∨ barPos x y k)) := by
  unfold barPixel
  have e1 : u32sub (u32sub 200 1) y = 199 - y := u32sub_rev (by omega) hy
  simp only [e1]
  have e2 : u32 (u32 (u32 ((199 - y) * 256) + x) * 4) = ((199 - y) * 256 + x) * 4 := by
    unfold u32; omega
  rw [e2]
  rw [u32_eq (show ((199 - y) * 256 + x) * 4 + 1 < _ by omega),
    u32_eq (show ((199 - y) * 256 + x) * 4 + 2 < _ by omega),
    u32_eq (show ((199 - y) * 256 + x) * 4 + 3 < _ by omega)]
  have hyy : 199 - (199 - y) = y := by omega
  have p0 := barChart_get (H := H) hx (show 199 - y < 200 by omega) (show 0 < 4 by omega)
  have p1 := barChart_get (H := H) hx (show 199 - y < 200 by omega) (show 1 < 4 by omega)
  have p2 := barChart_get (H := H) hx (show 199 - y < 200 by omega) (show 2 < 4 by omega)
  have p3 := barChart_get (H := H) hx (show 199 - y < 200 by omega) (show 3 < 4 by omega)
  simp only [hyy, Nat.add_zero, show (0:Nat) ≠ 3 by omega, show (1:Nat) ≠ 3 by omega,
    show (2:Nat) ≠ 3 by omega, false_or, true_or, if_true, ← hr, ← hg, ← hb] at p0 p1 p2 p3
  refine Ok.bind (ht.wr p0) fun t ht => ?_
  refine Ok.bind (ht.wr p1) fun t ht => ?_
  refine Ok.bind (ht.wr p2) fun t ht => ?_
  refine (ht.wr p3).mono fun t ht => ?_
  refine ht.mono ?_
  rintro k _ (h | ⟨c, hc, h⟩)
  · exact Or.inl (Or.inl (Or.inl (Or.inl h)))
  · have : c = 0 ∨ c = 1 ∨ c = 2 ∨ c = 3 := by omega
    rcases this with rfl | rfl | rfl | rfl
    · exact Or.inl (Or.inl (Or.inl (Or.inr h)))
    · exact Or.inl (Or.inl (Or.inr h))
    · exact Or.inl (Or.inr h)
    · exact Or.inr h

/-- The height of a bar as computed. -/
def barH (m c : Nat) : Nat := u32 (c * 200) / m

theorem barHeight_ok (f : Nat → Nat) {x m : Nat} (hx : x < 256) (hm : 0 < m) :
    barHeight (tab f) x m = .ok (barH m (f x)) := by
  unfold barHeight
  rw [rd_ok (tab_get hx)]
  simp only [ok_bind]
  rw [if_neg (by omega)]
  rfl

theorem barH_le {m c : Nat} (h : c ≤ m) : barH m c ≤ 200 := by
  unfold barH u32
  rcases Nat.eq_zero_or_pos m with rfl | hm
  · simp
  · apply Nat.div_le_of_le_mul
    calc c * 200 % 4294967296 ≤ c * 200 := Nat.mod_le _ _
      _ ≤ m * 200 := Nat.mul_le_mul_right _ h

theorem drawGrayBars_ok {f : Nat → Nat} {m : Nat} (hm : 0 < m) (hf : ∀ v, v < 256 → f v ≤ m)
    {V : Nat → Prop} {t : Cells UInt8}
    (ht : Filled (barChart fun _ v => barH m (f v)) V t) :
    Ok (drawGrayBars (tab f) m t) (Filled (barChart fun _ v => barH m (f v))
      (fun k => V k ∨ ∃ x, x < 256 ∧ ∃ y, y < barH m (f x) ∧ barPos x y k)) := by
  unfold drawGrayBars
  refine Filled.loop (fun x k => ∃ y, y < barH m (f x) ∧ barPos x y k) ht ?_
  intro x hx V t ht
  rw [barHeight_ok f hx hm]
  simp only [ok_bind]
  refine Filled.loop (fun y k => barPos x y k) ht ?_
  intro y hy V t ht
  have := barH_le (hf x hx)
  exact barPixel_ok hx (by omega) (by rw [if_pos hy]) (by rw [if_pos hy]) (by rw [if_pos hy]) ht

theorem drawRGBBars_ok {F : Nat → Nat → Nat} {m : Nat} (hm : 0 < m)
    (hf : ∀ c v, c < 3 → v < 256 → F c v ≤ m) (h0 : 3 ≤ ch ∨ ∀ c v, c ≠ 0 → F c v = 0)
    {V : Nat → Prop} {t : Cells UInt8}
    (ht : Filled (barChart fun c v => barH m (F c v)) V t) :
    Ok (drawRGBBars ch (tab (F 0)) (tab (F 1)) (tab (F 2)) m t)
      (Filled (barChart fun c v => barH m (F c v))
      (fun k => V k ∨ ∃ x, x < 256 ∧ ∃ y, (∃ c, c < 3 ∧ y < barH m (F c x)) ∧ barPos x y k)) := by
  unfold drawRGBBars
  refine Filled.loop (fun x k => ∃ y, (∃ c, c < 3 ∧ y < barH m (F c x)) ∧ barPos x y k) ht ?_
  intro x hx V t ht
  have hz : ¬ 3 ≤ ch → ∀ c, c ≠ 0 → barH m (F c x) = 0 := by
    intro h c hc
    rcases h0 with h0 | h0
    · omega
    · rw [h0 c x hc]; simp [barH, u32]
  rw [barHeight_ok (F 0) hx hm]
  simp only [ok_bind]
  have e : ∀ c, c ≠ 0 → (if ch ≥ 3 then barHeight (tab (F c)) x m else pure 0)
      = .ok (barH m (F c x)) := by
    intro c hc
    by_cases h3 : ch ≥ 3
    · rw [if_pos h3, barHeight_ok (F c) hx hm]
    · rw [if_neg h3, hz h3 c hc]; rfl
  rw [e 1 (by omega), e 2 (by omega)]
  simp only [ok_bind]
  have b0 := barH_le (hf 0 x (by omega) hx)
  have b1 := barH_le (hf 1 x (by omega) hx)
  have b2 := barH_le (hf 2 x (by omega) hx)
  refine (Filled.loop (fun y k => barPos x y k) ht ?_).mono fun t ht => ht.mono ?_
  · intro y hy V t ht
    have hy' : y < 200 := by split at hy <;> split at hy <;> omega
    refine barPixel_ok hx hy' rfl ?_ ?_ ht
    · by_cases h3 : 3 ≤ ch
      · simp [h3]
      · simp [h3, hz h3 1 (by omega)]
    · by_cases h3 : 3 ≤ ch
      · simp [h3]
      · simp [h3, hz h3 2 (by omega)]
  · rintro k _ (h | ⟨y, ⟨c, hc, hy⟩, h⟩)
    · exact Or.inl h
    · refine Or.inr ⟨y, ?_, h⟩
      have : c = 0 ∨ c = 1 ∨ c = 2 := by omega
      rcases this with rfl | rfl | rfl <;> (split <;> split <;> omega)

theorem alphaLoop_ok (H : Nat → Nat → Nat) :
    Ok (forN (u32 (256 * 200)) (List.replicate 204800 (some (0 : UInt8)))
      fun i o => wr o (u32 (u32 (i * 4) + 3)) 255)
      (Filled (barChart H) (fun k => (barChart H)[k]? = some 0 ∨ k % 4 = 3)) := by
  have e : u32 (256 * 200) = 51200 := by decide
  rw [e]
  have hl : (barChart H).length = 204800 := by simp [barChart]
  have h0 : Filled (barChart H) (fun k => (barChart H)[k]? = some 0)
      (List.replicate 204800 (some (0 : UInt8))) := by
    refine ⟨by rw [hl, List.length_replicate], fun k hk hz => ?_⟩
    rw [hz, List.getElem?_replicate, if_pos (by omega)]
  refine (Filled.loop (fun i k => k = i * 4 + 3) h0 ?_).mono fun t ht => ht.mono ?_
  · intro i hi V t ht
    have e : u32 (u32 (i * 4) + 3) = i * 4 + 3 := by unfold u32; omega
    rw [e]
    refine ht.wr ?_
    have := barChart_get (H := H) (show i % 256 < 256 by omega) (show i / 256 < 200 by omega)
      (show 3 < 4 by omega)
    rw [show (i / 256 * 256 + i % 256) * 4 + 3 = i * 4 + 3 by omega] at this
    simpa using this
  · rintro k hk (h | h)
    · exact Or.inl h
    · exact Or.inr ⟨k / 4, by omega, by omega⟩

theorem barChart_done {H : Nat → Nat → Nat} {t : Cells UInt8} {W : Nat → Prop}
    (ht : Filled (barChart H) W t)
    (hW : ∀ k, ((barChart H)[k]? = some 0 ∨ k % 4 = 3) ∨
      (∃ x, x < 256 ∧ ∃ y, y < 200 ∧ (∃ c, c < 3 ∧ y < H c x) ∧ barPos x y k) → W k) :
    t = (barChart H).map some := by
  refine ht.done fun k hk => hW k ?_
  have hk' : k < 256 * 200 * 4 := by simpa [barChart] using hk
  obtain ⟨x, y, c, hx, hy, hc, rfl⟩ := idx3_surj hk'
  by_cases h3 : c = 3
  · exact Or.inl (Or.inr (by omega))
  · by_cases h : 199 - y < H c x
    · refine Or.inr ⟨x, hx, 199 - y, by omega, ⟨c, by omega, h⟩, c, hc, ?_⟩
      rw [show 199 - (199 - y) = y by omega]
    · refine Or.inl (Or.inl ?_)
      rw [barChart_get hx hy hc]
      simp [h3, h]

theorem callocFill_dims {n : Nat} {z : UInt8} {fill : Cells UInt8 → CM (Cells UInt8)}
    {out : Cells UInt8} {D : Option (Nat × Nat)} (hp : Heap)
    (hf : fill (List.replicate n (some z)) = .ok out) :
    HOk (do
      match ← calloc n z with
      | none => pure (none, D)
      | some b => do
        let c ← use [b.id] (fill b.cells)
        pure (some { b with cells := c }, D)) hp
      fun r h' => r.2 = D ∧ match r.1 with
        | none => OutOfMemory hp h'
        | some b => FreshResult hp h' b ∧ b.cells = out := by
  refine HOk.bind (HOk.calloc (Q := fun r h' =>
    (r = none ∧ hp.fails hp.next = true ∧ h' = { hp with next := hp.next + 1 }) ∨
    (r = some ⟨hp.next, List.replicate n (some z)⟩ ∧
      h' = { hp with next := hp.next + 1, live := hp.next :: hp.live }))
    (fun hf => Or.inl ⟨rfl, hf, rfl⟩) (fun _ => Or.inr ⟨rfl, rfl⟩)) ?_
  rintro r h' (⟨rfl, hf, rfl⟩ | ⟨rfl, rfl⟩)
  · exact HOk.pure ⟨rfl, rfl, rfl, by simp, hp.next, by simp, by simp, hf⟩
  · refine HOk.bind (HOk.use (Q := fun c h'' => c = out ∧
        h'' = { hp with next := hp.next + 1, live := hp.next :: hp.live })
      (by simp) (Ok.of_eq hf ⟨rfl, rfl⟩)) ?_
    rintro c h'' ⟨rfl, rfl⟩
    exact HOk.pure ⟨rfl, ⟨rfl, rfl, Nat.le_refl _, Nat.lt_succ_self _⟩, rfl⟩

/-- The wrapped bars. -/
def wrappedBar (n ch : Nat) (d : List UInt8) (c v : Nat) : Nat := u32 (histBar n ch d c v)

theorem fillHistogram_ok (hd : d.length = n * ch) (hs : d.length ≤ P.szMax) (hch : 0 < ch) :
    ∃ m, IsMaxBar (wrappedBar n ch d) m ∧
      fillHistogram P n ch d (List.replicate 204800 (some 0))
        = .ok ((barChart fun c v => u32 (wrappedBar n ch d c v * 200) / m).map some) := by
  by_cases hg : IsGrayImg n ch d
  · have hch' : ch = 1 ∨ ch = 4 := hg.imp id And.left
    have hw : wrappedBar n ch d = fun _ v => cnt (fun i => px1 ch d i 0) n v := by
      funext c v; simp [wrappedBar, histBar, hg, cnt]
    obtain ⟨m, hm, hmax⟩ := maxGray_ok (cnt (fun i => px1 ch d i 0) n)
    refine ⟨m, by rw [hw]; exact hmax, ?_⟩
    rw [hw]
    apply Ok.eq
    unfold fillHistogram
    refine Ok.bind (alphaLoop_ok (fun c v => barH m (cnt (fun i => px1 ch d i 0) n v))) ?_
    intro t ht
    rw [histIsGray_ok hd hs]
    simp only [ok_bind, hg, decide_true, if_true]
    rw [histGray_ok hd hs hch']
    simp only [ok_bind]
    rw [hm]
    simp only [ok_bind]
    by_cases h0 : m = 0
    · rw [if_pos h0]
      refine Ok.pure' (barChart_done ht ?_)
      rintro k (h | ⟨x, _, y, _, ⟨c, _, hy⟩, _⟩)
      · exact h
      · simp [h0] at hy
    · rw [if_neg h0]
      refine (drawGrayBars_ok (by omega) (fun v hv => hmax.1 0 v (by omega) hv) ht).mono
        fun t ht => barChart_done ht ?_
      rintro k (h | ⟨x, hx, y, _, ⟨c, _, hy⟩, h⟩)
      · exact Or.inl h
      · exact Or.inr ⟨x, hx, y, hy, h⟩
  · have e : ∀ c, rgbTab ch d n c = tab (wrappedBar n ch d c) := by
      intro c
      unfold rgbTab wrappedBar histBar
      apply tab_congr
      intro l _
      simp only [hg, if_false]
      split <;> rfl
    have h0 : 3 ≤ ch ∨ ∀ c v, c ≠ 0 → wrappedBar n ch d c v = 0 := by
      by_cases h3 : 3 ≤ ch
      · exact Or.inl h3
      · refine Or.inr fun c v hc => ?_
        simp [wrappedBar, histBar, hg, hc, h3, u32]
    obtain ⟨m, hm, hmax⟩ := maxRGB_ok (ch := ch) (wrappedBar n ch d) h0
    refine ⟨m, hmax, ?_⟩
    apply Ok.eq
    unfold fillHistogram
    refine Ok.bind (alphaLoop_ok (fun c v => barH m (wrappedBar n ch d c v))) ?_
    intro t ht
    rw [histIsGray_ok hd hs]
    simp only [ok_bind, hg, decide_false, Bool.false_eq_true, if_false]
    rw [histRGB_ok hd hs hch]
    simp only [ok_bind, e]
    rw [hm]
    simp only [ok_bind]
    by_cases h00 : m = 0
    · rw [if_pos h00]
      refine Ok.pure' (barChart_done ht ?_)
      rintro k (h | ⟨x, _, y, _, ⟨c, _, hy⟩, _⟩)
      · exact h
      · simp [h00] at hy
    · rw [if_neg h00]
      refine (drawRGBBars_ok (by omega) hmax.1 h0 ht).mono
        fun t ht => barChart_done ht ?_
      rintro k (h | ⟨x, hx, y, _, hy, h⟩)
      · exact Or.inl h
      · exact Or.inr ⟨x, hx, y, hy, h⟩

end FlatCV
