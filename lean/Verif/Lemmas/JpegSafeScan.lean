/-
The JPEG decoder on arbitrary files: frame and scans.
-/
import Verif.Lemmas.JpegSafeHead

namespace FlatCV
open Model

/-- The sizes in a frame. -/
structure Dims where
  X : Nat
  Y : Nat
  N : Nat
  hM : Nat
  vM : Nat
  mX : Nat
  mY : Nat
  h : Nat → Nat
  v : Nat → Nat

structure DimsOk (D : Dims) : Prop where
  n : D.N = 1 ∨ D.N = 3 ∨ D.N = 4
  x1 : 1 ≤ D.X
  x2 : D.X ≤ 65535
  y1 : 1 ≤ D.Y
  y2 : D.Y ≤ 65535
  hM1 : 1 ≤ D.hM
  hM4 : D.hM ≤ 4
  vM1 : 1 ≤ D.vM
  vM4 : D.vM ≤ 4
  mX : D.mX = (D.X + D.hM * 8 - 1) / (D.hM * 8)
  mY : D.mY = (D.Y + D.vM * 8 - 1) / (D.vM * 8)
  h : ∀ i < D.N, 1 ≤ D.h i ∧ D.h i ≤ 4 ∧ D.hM % D.h i = 0
  v : ∀ i < D.N, 1 ≤ D.v i ∧ D.v i ≤ 4 ∧ D.vM % D.v i = 0

/-- Component `i` has its plane. -/
structure PlaneS (D : Dims) (i : Nat) (c : JComp) : Prop where
  h : c.h = D.h i
  v : c.v = D.v i
  w2 : c.w2 = D.mX * D.h i * 8
  h2 : c.h2 = D.mY * D.v i * 8
  x : c.x = (D.X * D.h i + D.hM - 1) / D.hM
  y : c.y = (D.Y * D.v i + D.vM - 1) / D.vM

/-- The state after the frame header. -/
structure FrameS (D : Dims) (j : Jst) : Prop where
  imgX : j.imgX = D.X
  imgY : j.imgY = D.Y
  imgN : j.imgN = D.N
  hMax : j.hMax = D.hM
  vMax : j.vMax = D.vM
  mcuX : j.mcuX = D.mX
  mcuY : j.mcuY = D.mY
  comp : ∀ i < D.N, ∃ c, j.comps[i]? = some c ∧ PlaneS D i c
  ord : ∀ o ∈ j.order, o < D.N

theorem FrameS.kept {D : Dims} {j j' : Jst} (h : FrameS D j) (k : Kept j j') : FrameS D j' :=
  ⟨k.imgX.trans h.imgX, k.imgY.trans h.imgY, k.imgN.trans h.imgN, k.hMax.trans h.hMax, k.vMax.trans h.vMax, k.mcuX.trans h.mcuX, k.mcuY.trans h.mcuY,
    by rw [k.comps]; exact h.comp, by rw [k.order]; exact h.ord⟩

theorem dims_n {D : Dims} (h : DimsOk D) : 1 ≤ D.N ∧ D.N ≤ 4 := by rcases h.n with h | h | h <;> omega

theorem ceil_mul_le {x m a b k : Nat} (hm : 1 ≤ m) (hx : x ≤ k * m) : (x * a + m - 1) / m ≤ k * a := by
  rw [← Nat.lt_succ_iff, Nat.div_lt_iff_lt_mul (by omega)]
  have h1 : x * a ≤ k * m * a := Nat.mul_le_mul_right a hx
  have h2 : (k * a + 1) * m = k * m * a + m := by ring
  show _ < (k * a + 1) * m
  rw [h2]
  omega

theorem le_ceil_mul (x : Nat) {q : Nat} (hq : 1 ≤ q) : x ≤ (x + q - 1) / q * q := by
  have h1 := Nat.div_add_mod (x + q - 1) q
  have h2 := Nat.mod_lt (x + q - 1) (by omega : q > 0)
  rw [Nat.mul_comm] at h1
  omega

theorem le_mX {D : Dims} (h : DimsOk D) : D.X ≤ D.mX * 8 * D.hM := by
  have := le_ceil_mul D.X (q := D.hM * 8) (by have := h.hM1; omega)
  rw [← h.mX] at this
  calc D.X ≤ D.mX * (D.hM * 8) := this
    _ = D.mX * 8 * D.hM := by ring

theorem le_mY {D : Dims} (h : DimsOk D) : D.Y ≤ D.mY * 8 * D.vM := by
  have := le_ceil_mul D.Y (q := D.vM * 8) (by have := h.vM1; omega)
  rw [← h.mY] at this
  calc D.Y ≤ D.mY * (D.vM * 8) := this
    _ = D.mY * 8 * D.vM := by ring

theorem plane_x {D : Dims} (hD : DimsOk D) {i : Nat} {c : JComp} (h : PlaneS D i c) : c.x ≤ c.w2 := by
  rw [h.x, h.w2]
  calc _ ≤ D.mX * 8 * D.h i := ceil_mul_le (b := 0) hD.hM1 (le_mX hD)
    _ = _ := by ring

theorem plane_y {D : Dims} (hD : DimsOk D) {i : Nat} {c : JComp} (h : PlaneS D i c) : c.y ≤ c.h2 := by
  rw [h.y, h.h2]
  calc _ ≤ D.mY * 8 * D.v i := ceil_mul_le (b := 0) hD.vM1 (le_mY hD)
    _ = _ := by ring

/-! ### The frame header -/

theorem frameComp_out {E : Fault → Prop} {B : Prop} {n i : Nat} (hi : i < 4) {j : Jst} (J : JstS B j) :
    Outc E (frameComp n j i) fun r => ∀ j', r = some j' → JstS B j' ∧ Onward j.e.s j'.e.s ∧ j'.imgX = j.imgX ∧ j'.imgY = j.imgY ∧ j'.imgN = j.imgN ∧ j'.order = j.order ∧
      (∃ c, j'.comps[i]? = some c ∧ 1 ≤ c.h ∧ c.h ≤ 4 ∧ 1 ≤ c.v ∧ c.v ≤ 4) ∧ ∀ k, k ≠ i → j'.comps[k]? = j.comps[k]? := by
  unfold frameComp
  have hR := takeBytes_reads 3 j.e.s
  rcases hg : takeBytes 3 j.e.s with ⟨b, s⟩
  rw [hg] at hR
  dsimp only at hR ⊢
  split
  · exact fun j' e => by cases e
  · split
    · exact fun j' e => by cases e
    · split
      · exact fun j' e => by cases e
      · rename_i h1 h2 h3
        refine Outc.bind (js_rdIn (by rw [J.cl]; exact hi)) fun c hc => ?_
        refine Outc.bind (js_wrIn (by rw [J.cl]; exact hi)) fun cs hcs => ?_
        subst hcs
        refine Outc.pure fun j' e => ?_
        injection e with e
        subst e
        have hC := J.c c (js_mem hc)
        refine ⟨⟨J.dcl, J.dc, J.acl, J.ac, J.dql, J.dq, J.fl, J.f, by rw [List.length_set]; exact J.cl, mem_set_all J.c ⟨hC.hd, hC.ha, by show b.getD 2 0 ≤ 3; omega, hC.pred, hC.data⟩, J.ol⟩,
          hR, rfl, rfl, rfl, rfl, ⟨_, List.getElem?_set_self (by rw [J.cl]; exact hi), ?_, ?_, ?_, ?_⟩, fun k hk => List.getElem?_set_ne (by omega)⟩
        · show 1 ≤ b.getD 1 0 / 16
          omega
        · show b.getD 1 0 / 16 ≤ 4
          omega
        · show 1 ≤ b.getD 1 0 % 16
          omega
        · show b.getD 1 0 % 16 ≤ 4
          omega

theorem frameComps_out {E : Fault → Prop} {B : Prop} {n : Nat} (hn : n ≤ 4) {j : Jst} (J : JstS B j) :
    Outc E (frameComps n j) fun r => ∀ j', r = some j' → JstS B j' ∧ Onward j.e.s j'.e.s ∧ j'.imgX = j.imgX ∧ j'.imgY = j.imgY ∧ j'.imgN = j.imgN ∧ j'.order = j.order ∧
      ∀ k < n, ∃ c, j'.comps[k]? = some c ∧ 1 ≤ c.h ∧ c.h ≤ 4 ∧ 1 ≤ c.v ∧ c.v ≤ 4 := by
  unfold frameComps
  refine (Outc.forN (fun i (r : Option Jst) => ∀ j', r = some j' → JstS B j' ∧ Onward j.e.s j'.e.s ∧ j'.imgX = j.imgX ∧ j'.imgY = j.imgY ∧ j'.imgN = j.imgN ∧ j'.order = j.order ∧
      ∀ k < i, ∃ c, j'.comps[k]? = some c ∧ 1 ≤ c.h ∧ c.h ≤ 4 ∧ 1 ≤ c.v ∧ c.v ≤ 4) ?_ ?_).mono fun r hr => hr
  · intro j' e
    injection e with e
    subst e
    exact ⟨⟨J.dcl, J.dc, J.acl, J.ac, J.dql, J.dq, J.fl, J.f, J.cl, J.c, J.ol⟩, Onward.refl _, rfl, rfl, rfl, rfl, fun k hk => absurd hk (Nat.not_lt_zero k)⟩
  · intro i hi r hr
    cases r with
    | none => exact fun j' e => by cases e
    | some j1 =>
      obtain ⟨a1, a2, a3, a4, a5, a6, a7⟩ := hr j1 rfl
      refine (frameComp_out (by omega) a1).mono fun r hr j' e => ?_
      obtain ⟨b1, b2, b3, b4, b5, b6, b7, b8⟩ := hr j' e
      refine ⟨b1, a2.trans b2, b3.trans a3, b4.trans a4, b5.trans a5, b6.trans a6, fun k hk => ?_⟩
      by_cases hki : k = i
      · subst hki
        exact b7
      · rw [b8 k hki]
        exact a7 k (by omega)

theorem foldl_max_bounds (l : List Nat) (a : Nat) : a ≤ l.foldl max a ∧ ∀ b, (a ≤ b → (∀ x ∈ l, x ≤ b) → l.foldl max a ≤ b) := by
  induction l generalizing a with
  | nil => exact ⟨le_rfl, fun b h _ => h⟩
  | cons x l ih =>
    obtain ⟨h1, h2⟩ := ih (max a x)
    exact ⟨le_trans (le_max_left _ _) h1, fun b hb hl => h2 b (max_le hb (hl x (by simp))) fun y hy => hl y (by simp [hy])⟩

theorem framePlanes_out {E : Fault → Prop} {B : Prop} {mem : JpegMem} {D : Dims} (hD : DimsOk D) {j : Jst} (J : JstS B j) (hX : j.imgX = D.X) (hY : j.imgY = D.Y) (hN : j.imgN = D.N)
    (hh : j.hMax = D.hM) (hv : j.vMax = D.vM) (hx : j.mcuX = D.mX) (hy : j.mcuY = D.mY) (ho : ∀ o ∈ j.order, o < D.N)
    (hc : ∀ i < D.N, ∃ c, j.comps[i]? = some c ∧ c.h = D.h i ∧ c.v = D.v i) :
    Outc E (framePlanes mem j) fun r => ∀ j', r = some j' → JstS B j' ∧ FrameS D j' ∧ Onward j.e.s j'.e.s := by
  unfold framePlanes
  have hn4 := (dims_n hD).2
  refine (Outc.forN (fun i (r : Option Jst) => ∀ j', r = some j' → JstS B j' ∧ Onward j.e.s j'.e.s ∧ j'.imgX = D.X ∧ j'.imgY = D.Y ∧ j'.imgN = D.N ∧
      j'.hMax = D.hM ∧ j'.vMax = D.vM ∧ j'.mcuX = D.mX ∧ j'.mcuY = D.mY ∧ (∀ o ∈ j'.order, o < D.N) ∧ (∀ i < D.N, ∃ c, j'.comps[i]? = some c ∧ c.h = D.h i ∧ c.v = D.v i) ∧
      ∀ k < i, ∃ c, j'.comps[k]? = some c ∧ PlaneS D k c) ?_ ?_).mono ?_
  · intro j' e
    injection e with e
    subst e
    exact ⟨J, Onward.refl _, hX, hY, hN, hh, hv, hx, hy, ho, hc, fun k hk => absurd hk (Nat.not_lt_zero k)⟩
  · intro i hi r hr
    rw [hN] at hi
    cases r with
    | none => exact fun j' e => by cases e
    | some j1 =>
      obtain ⟨a1, a2, a3, a4, a5, a6, a7, a8, a9, a10, a11, a12⟩ := hr j1 rfl
      unfold framePlane
      refine Outc.bind (js_rdIn (by rw [a1.cl]; omega)) fun c hcc => ?_
      dsimp only
      split
      · refine Outc.bind (js_wrIn (by rw [a1.cl]; omega)) fun cs hcs => ?_
        subst hcs
        refine Outc.pure fun j' e => ?_
        injection e with e
        subst e
        obtain ⟨c', hc1, hc2, hc3⟩ := a11 i hi
        have hcc' : c = c' := by
          rw [hcc] at hc1
          injection hc1
        subst hcc'
        have hC := a1.c c (js_mem hcc)
        have hself := fun (v : JComp) => List.getElem?_set_self (l := j1.comps) (i := i) (a := v) (by rw [a1.cl]; omega)
        refine ⟨⟨a1.dcl, a1.dc, a1.acl, a1.ac, a1.dql, a1.dq, a1.fl, a1.f, by rw [List.length_set]; exact a1.cl,
          mem_set_all a1.c ⟨hC.hd, hC.ha, hC.tq, hC.pred, List.length_replicate⟩, a1.ol⟩, a2, a3, a4, a5, a6, a7, a8, a9, a10, fun k hk => ?_, fun k hk => ?_⟩
        · by_cases hki : k = i
          · subst hki
            exact ⟨_, hself _, hc2, hc3⟩
          · obtain ⟨c'', e1, e2⟩ := a11 k hk
            exact ⟨c'', by show (j1.comps.set i _)[k]? = _; rw [List.getElem?_set_ne (by omega)]; exact e1, e2⟩
        · by_cases hki : k = i
          · subst hki
            exact ⟨_, hself _, hc2, hc3, by show j1.mcuX * c.h * 8 = _; rw [a8, hc2], by show j1.mcuY * c.v * 8 = _; rw [a9, hc3],
              by show (j1.imgX * c.h + j1.hMax - 1) / j1.hMax = _; rw [a3, a6, hc2], by show (j1.imgY * c.v + j1.vMax - 1) / j1.vMax = _; rw [a4, a7, hc3]⟩
          · obtain ⟨c'', e1, e2⟩ := a12 k (by omega)
            exact ⟨c'', by show (j1.comps.set i _)[k]? = _; rw [List.getElem?_set_ne (by omega)]; exact e1, e2⟩
      · exact fun j' e => by cases e
  · intro r hr j' e
    obtain ⟨a1, a2, a3, a4, a5, a6, a7, a8, a9, a10, a11, a12⟩ := hr j' e
    rw [hN] at a12
    exact ⟨a1, ⟨a3, a4, a5, a6, a7, a8, a9, a12, a10⟩, a2⟩

theorem process_frame_header_out {E : Fault → Prop} {B : Prop} {mem : JpegMem} {j : Jst} (J : JstS B j) (ho : ∀ o ∈ j.order, o = 0) :
    Outc E (process_frame_header mem j) fun r => ∀ j', r = some j' → ∃ D, DimsOk D ∧ JstS B j' ∧ FrameS D j' ∧ Onward j.e.s j'.e.s := by
  unfold process_frame_header
  have r1 := get16_reads j.e.s
  rcases e1 : get16be j.e.s with ⟨lf, s1⟩
  rw [e1] at r1
  dsimp only at r1 ⊢
  split
  · exact fun j' e => by cases e
  have r2 := get8_reads s1
  rcases e2 : get8 s1 with ⟨p, s2⟩
  rw [e2] at r2
  dsimp only at r2 ⊢
  split
  · exact fun j' e => by cases e
  have r3 := get16_reads s2
  have l3 := get16_le s2
  rcases e3 : get16be s2 with ⟨y, s3⟩
  rw [e3] at r3 l3
  dsimp only at r3 l3 ⊢
  split
  · exact fun j' e => by cases e
  rename_i hy0
  have r4 := get16_reads s3
  have l4 := get16_le s3
  rcases e4 : get16be s3 with ⟨x, s4⟩
  rw [e4] at r4 l4
  dsimp only at r4 l4 ⊢
  split
  · exact fun j' e => by cases e
  rename_i hx0
  have r5 := get8_reads s4
  rcases e5 : get8 s4 with ⟨c, s5⟩
  rw [e5] at r5
  dsimp only at r5 ⊢
  split
  · exact fun j' e => by cases e
  rename_i hc
  split
  · exact fun j' e => by cases e
  have J1 : JstS B { (j.at s5) with imgX := x, imgY := y, imgN := c.toNat } := ⟨J.dcl, J.dc, J.acl, J.ac, J.dql, J.dq, J.fl, J.f, J.cl, J.c, J.ol⟩
  refine Outc.bind (frameComps_out (by omega) J1) fun r hr => ?_
  cases r with
  | none => exact fun j' e => by cases e
  | some j1 =>
    obtain ⟨a1, a2, a3, a4, a5, a6, a7⟩ := hr j1 rfl
    dsimp only at a3 a4 a5 a6 ⊢
    split
    · exact fun j' e => by cases e
    · split
      · exact fun j' e => by cases e
      · rename_i hany
        have htake : ∀ k < c.toNat, ∀ cc, j1.comps[k]? = some cc → cc ∈ j1.comps.take c.toNat := by
          intro k hk cc h
          apply js_mem (i := k)
          rw [List.getElem?_take, if_pos hk]
          exact h
        have hmem : ∀ cc ∈ j1.comps.take c.toNat, 1 ≤ cc.h ∧ cc.h ≤ 4 ∧ 1 ≤ cc.v ∧ cc.v ≤ 4 := by
          intro cc hcc
          obtain ⟨k, hk⟩ := List.mem_iff_getElem?.mp hcc
          rw [List.getElem?_take] at hk
          split at hk
          · rename_i hkc
            obtain ⟨c', e', h'⟩ := a7 k hkc
            rw [hk] at e'
            injection e' with e'
            subst e'
            exact h'
          · cases hk
        have hdiv : ∀ cc ∈ j1.comps.take c.toNat, ((j1.comps.take c.toNat).map (·.h)).foldl max 1 % cc.h = 0 ∧ ((j1.comps.take c.toNat).map (·.v)).foldl max 1 % cc.v = 0 := by
          intro cc hcc
          by_contra hcon
          apply hany
          rw [List.any_eq_true]
          refine ⟨cc, hcc, ?_⟩
          rw [decide_eq_true_eq]
          by_contra h2
          apply hcon
          constructor
          · by_contra h3
            exact h2 (Or.inl h3)
          · by_contra h3
            exact h2 (Or.inr h3)
        obtain ⟨m1, m2⟩ := foldl_max_bounds ((j1.comps.take c.toNat).map (·.h)) 1
        obtain ⟨n1, n2⟩ := foldl_max_bounds ((j1.comps.take c.toNat).map (·.v)) 1
        have m4 := m2 4 (by decide) fun x hx => by
          obtain ⟨cc, h1, rfl⟩ := List.mem_map.mp hx
          exact (hmem cc h1).2.1
        have n4 := n2 4 (by decide) fun x hx => by
          obtain ⟨cc, h1, rfl⟩ := List.mem_map.mp hx
          exact (hmem cc h1).2.2.2
        generalize ((j1.comps.take c.toNat).map (·.h)).foldl max 1 = hm at hdiv m1 m4 ⊢
        generalize ((j1.comps.take c.toNat).map (·.v)).foldl max 1 = vm at hdiv n1 n4 ⊢
        have hcase : c.toNat = 1 ∨ c.toNat = 3 ∨ c.toNat = 4 := by omega
        let D : Dims := ⟨x, y, c.toNat, hm, vm, (x + hm * 8 - 1) / (hm * 8), (y + vm * 8 - 1) / (vm * 8), fun i => ((j1.comps[i]?).map (·.h)).getD 0, fun i => ((j1.comps[i]?).map (·.v)).getD 0⟩
        have hD : DimsOk D := by
          refine ⟨hcase, by show 1 ≤ x; omega, l4, by show 1 ≤ y; omega, l3, m1, m4, n1, n4, rfl, rfl, fun i hi => ?_, fun i hi => ?_⟩
          · obtain ⟨cc, h1, h2, h3, h4, h5⟩ := a7 i hi
            show 1 ≤ ((j1.comps[i]?).map (·.h)).getD 0 ∧ ((j1.comps[i]?).map (·.h)).getD 0 ≤ 4 ∧ hm % ((j1.comps[i]?).map (·.h)).getD 0 = 0
            rw [h1]
            exact ⟨h2, h3, (hdiv cc (htake i hi cc h1)).1⟩
          · obtain ⟨cc, h1, h2, h3, h4, h5⟩ := a7 i hi
            show 1 ≤ ((j1.comps[i]?).map (·.v)).getD 0 ∧ ((j1.comps[i]?).map (·.v)).getD 0 ≤ 4 ∧ vm % ((j1.comps[i]?).map (·.v)).getD 0 = 0
            rw [h1]
            exact ⟨h4, h5, (hdiv cc (htake i hi cc h1)).2⟩
        refine Outc.mono (framePlanes_out (mem := mem) (D := D) (j := { j1 with hMax := hm, vMax := vm, mcuX := (x + hm * 8 - 1) / (hm * 8), mcuY := (y + vm * 8 - 1) / (vm * 8) }) hD
          (B := B) ⟨a1.dcl, a1.dc, a1.acl, a1.ac, a1.dql, a1.dq, a1.fl, a1.f, a1.cl, a1.c, a1.ol⟩ a3 a4 a5 rfl rfl rfl rfl ?_ ?_) fun r hr => ?_
        · intro o hoo
          have hoo' : o ∈ j.order := by
            have : o ∈ j1.order := hoo
            rw [a6] at this
            exact this
          rw [ho o hoo']
          show 0 < c.toNat
          omega
        · intro i hi
          obtain ⟨cc, h1, _⟩ := a7 i hi
          refine ⟨cc, h1, ?_, ?_⟩
          · show cc.h = ((j1.comps[i]?).map (·.h)).getD 0
            rw [h1]; rfl
          · show cc.v = ((j1.comps[i]?).map (·.v)).getD 0
            rw [h1]; rfl
        · intro j' e
          obtain ⟨b1, b2, b3⟩ := hr j' e
          exact ⟨D, hD, b1, b2, ((((r1.trans r2).trans r3).trans r4).trans r5).trans (a2.trans b3)⟩

/-! ### The scan -/

/-- The state in a frame. -/
structure InFrame (B : Prop) (D : Dims) (j j' : Jst) : Prop where
  s : JstS B j'
  fr : FrameS D j'
  on : Onward j.e.s j'.e.s

theorem InFrame.trans {B : Prop} {D : Dims} {a b c : Jst} (h : InFrame B D a b) (h' : InFrame B D b c) : InFrame B D a c := ⟨h'.s, h'.fr, h.on.trans h'.on⟩

theorem frame_set {D : Dims} {j : Jst} (F : FrameS D j) (cl : j.comps.length = 4) (hn4 : D.N ≤ 4) {n : Nat} {c c' : JComp} (hc : j.comps[n]? = some c) (h1 : c'.h = c.h) (h2 : c'.v = c.v) (h3 : c'.w2 = c.w2) (h4 : c'.h2 = c.h2)
    (h5 : c'.x = c.x) (h6 : c'.y = c.y) : ∀ i < D.N, ∃ d, (j.comps.set n c')[i]? = some d ∧ PlaneS D i d := by
  intro i hi
  obtain ⟨d, e1, e2⟩ := F.comp i hi
  by_cases hin : n = i
  · subst hin
    rw [hc] at e1
    injection e1 with e1
    subst e1
    exact ⟨c', List.getElem?_set_self (by omega), ⟨h1.trans e2.h, h2.trans e2.v, h3.trans e2.w2, h4.trans e2.h2, h5.trans e2.x, h6.trans e2.y⟩⟩
  · exact ⟨d, by rw [List.getElem?_set_ne hin]; exact e1, e2⟩

theorem scanComp_out {E : Fault → Prop} {B : Prop} {D : Dims} (hD : DimsOk D) {j : Jst} (J : JstS B j) (F : FrameS D j) {i : Nat} (hi : i < 4) :
    Outc E (scanComp j i) fun r => ∀ j', r = some j' → InFrame B D j j' := by
  unfold scanComp
  have r1 := get8_reads j.e.s
  rcases e1 : get8 j.e.s with ⟨a, s1⟩
  rw [e1] at r1
  have r2 := get8_reads s1
  rcases e2 : get8 s1 with ⟨q, s2⟩
  rw [e2] at r2
  dsimp only at r1 r2 ⊢
  rw [e2]
  dsimp only
  split
  · exact fun j' e => by cases e
  · rename_i hw
    split
    · exact fun j' e => by cases e
    · split
      · exact fun j' e => by cases e
      · rename_i hq1 hq2
        generalize (j.comps.take j.imgN).findIdx (fun c => decide (c.id = a.toNat)) = w at hw ⊢
        have hn4 := (dims_n hD).2
        have hwN : w < D.N := by
          have : w < (j.comps.take j.imgN).length := by omega
          rw [List.length_take, F.imgN] at this
          omega
        refine Outc.bind (js_rdIn (by rw [J.cl]; omega)) fun c hc => ?_
        refine Outc.bind (js_wrIn (by rw [J.cl]; omega)) fun cs hcs => ?_
        refine Outc.bind (js_wrIn (by rw [J.ol]; exact hi)) fun os hos => ?_
        subst hcs
        subst hos
        refine Outc.pure fun j' e => ?_
        injection e with e
        subst e
        have hC := J.c c (js_mem hc)
        exact ⟨⟨J.dcl, J.dc, J.acl, J.ac, J.dql, J.dq, J.fl, J.f, by rw [List.length_set]; exact J.cl,
          mem_set_all J.c ⟨by show q.toNat / 16 ≤ 3; omega, by show q.toNat % 16 ≤ 3; omega, hC.tq, hC.pred, hC.data⟩, by rw [List.length_set]; exact J.ol⟩,
          ⟨F.imgX, F.imgY, F.imgN, F.hMax, F.vMax, F.mcuX, F.mcuY, frame_set F J.cl hn4 hc rfl rfl rfl rfl rfl rfl, mem_set_all F.ord hwN⟩, r1.trans r2⟩

theorem process_scan_header_out {E : Fault → Prop} {B : Prop} {D : Dims} (hD : DimsOk D) {j : Jst} (J : JstS B j) (F : FrameS D j) :
    Outc E (process_scan_header j) fun r => ∀ j' n, r = some (j', n) → InFrame B D j j' ∧ Ctx.left j'.e.s + 1 ≤ Ctx.left j.e.s ∧ n ≤ 4 := by
  unfold process_scan_header
  have r1 := get16_reads j.e.s
  have hpos := get16_pos (s := j.e.s)
  rcases e1 : get16be j.e.s with ⟨ls, s1⟩
  rw [e1] at r1 hpos
  have r2 := get8_reads s1
  rcases e2 : get8 s1 with ⟨n, s2⟩
  rw [e2] at r2
  dsimp only at r1 r2 hpos ⊢
  rw [e2]
  dsimp only
  split
  · exact fun j' n e => by cases e
  · rename_i hn
    split
    · exact fun j' n e => by cases e
    · rename_i hls
      have hp := hpos (by omega)
      refine Outc.bind (P := fun r : Option Jst => ∀ j', r = some j' → InFrame B D (j.at s2) j')
        ((Outc.forN (fun _ (r : Option Jst) => ∀ j', r = some j' → InFrame B D (j.at s2) j') ?_ ?_).mono fun r hr => hr) fun r hr => ?_
      · intro j' e
        injection e with e
        subst e
        exact ⟨J.at s2, F.kept (Kept.ent _ _), Onward.refl _⟩
      · intro i hi r hr
        cases r with
        | none => exact fun j' e => by cases e
        | some j1 =>
          have h1 := hr j1 rfl
          exact (scanComp_out hD h1.s h1.fr (by omega)).mono fun r hr j' e => h1.trans (hr j' e)
      · cases r with
        | none => exact fun j' n e => by cases e
        | some j1 =>
          have h1 := hr j1 rfl
          have r3 := takeBytes_reads 3 j1.e.s
          dsimp only
          rcases e3 : takeBytes 3 j1.e.s with ⟨b, s3⟩
          rw [e3] at r3
          dsimp only at r3 ⊢
          split
          · exact fun j' n e => by cases e
          · split
            · exact fun j' n e => by cases e
            · refine Outc.pure fun j' n e => ?_
              injection e with e
              injection e with e en
              subst e
              have hon : Onward s2 s3 := Onward.trans (b := j1.e.s) h1.on r3
              refine ⟨⟨h1.s.at s3, h1.fr.kept (Kept.ent _ _), (r1.trans r2).trans hon⟩, ?_, by omega⟩
              have a1 := hon.left
              have a2 := r2.left
              show Ctx.left s3 + 1 ≤ _
              omega

/-- The state in a scan. -/
structure InScan (B : Prop) (D : Dims) (j j' : Jst) : Prop where
  i : InFrame B D j j'
  e : EntS j'.e

theorem InScan.trans {B : Prop} {D : Dims} {a b c : Jst} (h : InScan B D a b) (h' : InScan B D b c) : InScan B D a c := ⟨h.i.trans h'.i, h'.e⟩

theorem reset_out {B : Prop} {D : Dims} {j : Jst} (J : JstS B j) (F : FrameS D j) : InScan B D j (j_reset j) := by
  refine ⟨⟨⟨J.dcl, J.dc, J.acl, J.ac, J.dql, J.dq, J.fl, J.f, ?_, ?_, J.ol⟩, ⟨F.imgX, F.imgY, F.imgN, F.hMax, F.vMax, F.mcuX, F.mcuY, ?_, F.ord⟩, Onward.refl _⟩,
    ⟨by show 0 < 4294967296; decide, by show (0 : Int) ≤ 0; decide, by show (0 : Int) ≤ 32; decide⟩⟩
  · show (j.comps.map _).length = 4
    rw [List.length_map]
    exact J.cl
  · intro c hc
    obtain ⟨c', h', rfl⟩ := List.mem_map.mp hc
    have := J.c c' h'
    exact ⟨this.hd, this.ha, this.tq, by show (-2147483648 : Int) ≤ 0 ∧ (0 : Int) ≤ 2147483647; decide, this.data⟩
  · intro i hi
    obtain ⟨c, e1, e2⟩ := F.comp i hi
    refine ⟨{ c with pred := 0 }, ?_, ⟨e2.h, e2.v, e2.w2, e2.h2, e2.x, e2.y⟩⟩
    show (j.comps.map _)[i]? = _
    rw [List.getElem?_map, e1]
    rfl

theorem scanBlock_out {B : Prop} {D : Dims} (hD : DimsOk D) {j : Jst} (J : JstS B j) (F : FrameS D j) (hE : EntS j.e) {n x2 y2 : Nat} (hn : n < D.N)
    (hx : x2 + 8 ≤ D.mX * D.h n * 8) (hy : y2 + 8 ≤ D.mY * D.v n * 8) :
    Outc (JE B) (scanBlock n x2 y2 j) fun r => ∀ j', r = some j' → InScan B D j j' := by
  unfold scanBlock
  have hn4 := (dims_n hD).2
  refine Outc.bind (js_rdIn (by rw [J.cl]; omega)) fun c hc => ?_
  have hC := J.c c (js_mem hc)
  have hP : PlaneS D n c := by
    obtain ⟨c', e1, e2⟩ := F.comp n hn
    rw [hc] at e1
    injection e1 with e1
    subst e1
    exact e2
  have := hC.hd
  have := hC.ha
  have := hC.tq
  refine Outc.bind (js_rdIn (by rw [J.dcl]; omega)) fun hdc h1 => ?_
  refine Outc.bind (js_rdIn (by rw [J.acl]; omega)) fun hac h2 => ?_
  refine Outc.bind (js_rdIn (by rw [J.fl]; omega)) fun fac h3 => ?_
  refine Outc.bind (js_rdIn (by rw [J.dql]; omega)) fun dq h4 => ?_
  refine Outc.bind (decode_block_out hE (J.dc _ (js_mem h1)) (J.ac _ (js_mem h2)) (J.f _ (js_mem h3)) (J.dq _ (js_mem h4)) hC.pred) fun r hr => ?_
  cases r with
  | none => exact fun j' e => by cases e
  | some p =>
    obtain ⟨data, pred, e⟩ := p
    obtain ⟨b1, b2, b3, b4⟩ := hr data pred e rfl
    dsimp only
    refine Outc.bind (idct_block_out (n := c.w2 * c.h2) hC.data ?_ b1) fun d hd => ?_
    · rw [hP.w2, hP.h2]
      generalize D.mX * D.h n * 8 = W at hx
      generalize D.mY * D.v n * 8 = H at hy
      have : W * (y2 + 8) ≤ W * H := Nat.mul_le_mul_left W hy
      have e8 : W * (y2 + 8) = W * y2 + 7 * W + W := by ring
      omega
    · refine Outc.bind (js_wrIn (by rw [J.cl]; omega)) fun cs hcs => ?_
      subst hcs
      refine Outc.pure fun j' e' => ?_
      injection e' with e'
      subst e'
      exact ⟨⟨⟨J.dcl, J.dc, J.acl, J.ac, J.dql, J.dq, J.fl, J.f, by rw [List.length_set]; exact J.cl, mem_set_all J.c ⟨hC.hd, hC.ha, hC.tq, b2, hd⟩, J.ol⟩,
        ⟨F.imgX, F.imgY, F.imgN, F.hMax, F.vMax, F.mcuX, F.mcuY, frame_set F J.cl hn4 hc rfl rfl rfl rfl rfl rfl, F.ord⟩, b4⟩, b3⟩

/-- The scan goes on, or ends, in a good state. -/
def ScanOk (B : Prop) (D : Dims) (j : Jst) : ScanOut → Prop
  | .fail => True
  | .stop j' => InFrame B D j j'
  | .more j' => InScan B D j j'

theorem ScanOk.mono {B : Prop} {D : Dims} {a b : Jst} (h : InScan B D a b) {st : ScanOut} (hs : ScanOk B D b st) : ScanOk B D a st := by
  cases st with
  | fail => trivial
  | stop j' => exact h.i.trans hs
  | more j' => exact h.trans hs

theorem afterMCU_out {B : Prop} {D : Dims} {j : Jst} (J : JstS B j) (F : FrameS D j) (hE : EntS j.e) : Outc (JE B) (afterMCU j) (ScanOk B D j) := by
  unfold afterMCU
  refine Outc.bind (js_i32' _) fun t _ => ?_
  have J1 : JstS B { j with todo := t } := ⟨J.dcl, J.dc, J.acl, J.ac, J.dql, J.dq, J.fl, J.f, J.cl, J.c, J.ol⟩
  have F1 : FrameS D { j with todo := t } := F.kept ⟨rfl, rfl, rfl, rfl, rfl, rfl, rfl, rfl, rfl, rfl⟩
  dsimp only
  split
  · refine Outc.bind (need_out hE (by decide)) fun e he => ?_
    have I : InScan B D j { j with todo := t, e := e } := ⟨⟨J1.ent e, F1.kept (Kept.ent _ _), he.2⟩, he.1⟩
    split
    · exact Outc.pure (I.trans (reset_out I.i.s I.i.fr))
    · exact Outc.pure I.i
  · exact Outc.pure ⟨⟨J1, F1, Onward.refl _⟩, hE⟩

theorem mcuComp_out {B : Prop} {D : Dims} (hD : DimsOk D) {j : Jst} (J : JstS B j) (F : FrameS D j) (hE : EntS j.e) {i jj n : Nat} (hn : n < D.N) (hi : i < D.mX) (hj : jj < D.mY) :
    Outc (JE B) (mcuComp i jj n j) fun r => ∀ j', r = some j' → InScan B D j j' := by
  unfold mcuComp
  have hn4 := (dims_n hD).2
  refine Outc.bind (js_rdIn (by rw [J.cl]; omega)) fun c hc => ?_
  have hP : PlaneS D n c := by
    obtain ⟨c', e1, e2⟩ := F.comp n hn
    rw [hc] at e1
    injection e1 with e1
    subst e1
    exact e2
  rw [hP.h, hP.v]
  have aux : ∀ {i m h x : Nat}, i < m → x < h → (i * h + x) * 8 + 8 ≤ m * h * 8 := by
    intro i m h x h1 h2
    have : (i + 1) * h ≤ m * h := Nat.mul_le_mul_right h h1
    have e : (i + 1) * h = i * h + h := by ring
    omega
  have h0 : ∀ j', some j = some j' → InScan B D j j' := by
    intro j' e
    injection e with e
    subst e
    exact ⟨⟨J, F, Onward.refl _⟩, hE⟩
  refine (Outc.forN (fun _ (r : Option Jst) => ∀ j', r = some j' → InScan B D j j') h0 ?_).mono fun r hr => hr
  intro y hy r hr
  refine (Outc.forN (fun _ (r : Option Jst) => ∀ j', r = some j' → InScan B D j j') hr ?_).mono fun r hr => hr
  intro x hx r hr
  cases r with
  | none => exact fun j' e => by cases e
  | some j1 =>
    have h1 := hr j1 rfl
    exact (scanBlock_out hD h1.i.s h1.i.fr h1.e hn (aux hi hx) (aux hj hy)).mono fun r hr j' e => h1.trans (hr j' e)

theorem parse_entropy_out {B : Prop} {D : Dims} (hD : DimsOk D) {j : Jst} (J : JstS B j) (F : FrameS D j) {scanN : Nat} (hs : scanN ≤ 4) :
    Outc (JE B) (parse_entropy scanN j) fun r => ∀ j', r = some j' → InFrame B D j j' := by
  unfold parse_entropy
  have I := reset_out J F
  have hn4 := (dims_n hD).2
  generalize j_reset j = j0 at I
  dsimp only
  refine Outc.bind (P := ScanOk B D j) ?_ fun st hst => ?_
  · split
    · unfold scanOne
      refine Outc.bind (js_rdIn (by rw [I.i.s.ol]; decide)) fun n hn => ?_
      have hnN := I.i.fr.ord n (js_mem hn)
      refine Outc.bind (js_rdIn (by rw [I.i.s.cl]; omega)) fun c hc => ?_
      have hP : PlaneS D n c := by
        obtain ⟨c', e1, e2⟩ := I.i.fr.comp n hnN
        rw [hc] at e1
        injection e1 with e1
        subst e1
        exact e2
      have hx := plane_x hD hP
      have hy := plane_y hD hP
      rw [hP.w2] at hx
      rw [hP.h2] at hy
      refine (Outc.forN (fun _ => ScanOk B D j) (s := ScanOut.more j0) I ?_).mono fun r hr => hr
      intro y hyy st hst
      refine (Outc.forN (fun _ => ScanOk B D j) hst ?_).mono fun r hr => hr
      intro x hxx st hst
      cases st with
      | fail => exact hst
      | stop j1 => exact hst
      | more j1 =>
        have h1 : InScan B D j j1 := hst
        show Outc (JE B) (scanBlock n (x * 8) (y * 8) j1 >>= _) _
        refine Outc.bind (scanBlock_out hD h1.i.s h1.i.fr h1.e hnN (by omega) (by omega)) fun r hr => ?_
        cases r with
        | none => trivial
        | some j2 =>
          have h2 := hr j2 rfl
          exact (afterMCU_out h2.i.s h2.i.fr h2.e).mono fun r hr => (ScanOk.mono h2 hr).mono h1
    · refine (Outc.forN (fun _ => ScanOk B D j) (s := ScanOut.more j0) I ?_).mono fun r hr => hr
      intro jj hjj st hst
      refine (Outc.forN (fun _ => ScanOk B D j) hst ?_).mono fun r hr => hr
      intro i hi st hst
      rw [I.i.fr.mcuX] at hi
      rw [I.i.fr.mcuY] at hjj
      cases st with
      | fail => exact hst
      | stop j1 => exact hst
      | more j1 =>
        have h1 : InScan B D j j1 := hst
        show Outc (JE B) (scanMCU scanN i jj j1) _
        unfold scanMCU
        have h0 : ∀ j', some j1 = some j' → InScan B D j1 j' := by
          intro j' e
          injection e with e
          subst e
          exact ⟨⟨h1.i.s, h1.i.fr, Onward.refl _⟩, h1.e⟩
        refine Outc.bind (P := fun r : Option Jst => ∀ j', r = some j' → InScan B D j1 j')
          ((Outc.forN (fun _ (r : Option Jst) => ∀ j', r = some j' → InScan B D j1 j') h0 ?_).mono fun r hr => hr) fun r hr => ?_
        · intro k hk r hr
          cases r with
          | none => exact fun j' e => by cases e
          | some j2 =>
            have h2 := hr j2 rfl
            refine Outc.bind (js_rdIn (by rw [h2.i.s.ol]; omega)) fun n hn => ?_
            have hnN := h2.i.fr.ord n (js_mem hn)
            exact (mcuComp_out hD h2.i.s h2.i.fr h2.e hnN hi hjj).mono fun r hr j' e => h2.trans (hr j' e)
        · cases r with
          | none => trivial
          | some j2 =>
            have h2 := hr j2 rfl
            exact (afterMCU_out h2.i.s h2.i.fr h2.e).mono fun r hr => (ScanOk.mono h2 hr).mono h1
  · cases st with
    | fail => exact fun j' e => by cases e
    | stop j1 =>
      refine Outc.pure fun j' e => ?_
      injection e with e
      subst e
      exact hst
    | more j1 =>
      refine Outc.pure fun j' e => ?_
      injection e with e
      subst e
      exact hst.i

/-! ### The file -/

theorem skipJunk_out {E : Fault → Prop} {feof : Ctx → Bool} (hf : EofOk feof) : ∀ (n : Nat) (b : Bool) (s : Ctx), Ctx.left s < n → Outc E (skipJunk feof n b s) fun r => Onward s r.2 := by
  intro n
  induction n with
  | zero => intro b s h; omega
  | succ n ih =>
    intro b s h
    unfold skipJunk
    by_cases he : at_eof feof s = true
    · rw [if_pos he]
      exact Onward.refl _
    · rw [if_neg he]
      have hne := eof_left hf he
      have h1 := get8_left s
      have r1 := get8_reads s
      rcases e1 : get8 s with ⟨x, s1⟩
      rw [e1] at h1 r1
      dsimp only at h1 r1 ⊢
      split
      · exact r1
      · exact (ih _ s1 (by omega)).mono fun r hr => r1.trans hr

theorem afterScan_out {E : Fault → Prop} {feof : Ctx → Bool} (hf : EofOk feof) (j : Jst) :
    Outc E (afterScan feof j) fun r => ∃ e', r.2 = { j with e := e' } ∧ Onward j.e.s e'.s := by
  unfold afterScan
  refine Outc.bind (P := fun r : Jst => ∃ e', r = { j with e := e' } ∧ Onward j.e.s e'.s) ?_ fun j1 h1 => ?_
  · unfold junkAfter
    split
    · refine Outc.bind (skipJunk_out hf _ _ _ (by have := left_fuel j.e.s; omega)) fun r hr => ?_
      obtain ⟨x, s⟩ := r
      exact ⟨_, rfl, hr⟩
    · exact ⟨j.e, rfl, Onward.refl _⟩
  · obtain ⟨e1, rfl, o1⟩ := h1
    refine Outc.bind (get_marker_out _) fun r hr => ?_
    obtain ⟨m, j2⟩ := r
    obtain ⟨e2, h2, o2, _⟩ := hr
    dsimp only at h2 o2 ⊢
    subst h2
    split
    · refine (get_marker_out _).mono fun r hr => ?_
      obtain ⟨e3, h3, o3, _⟩ := hr
      exact ⟨e3, h3, (o1.trans o2).trans o3⟩
    · exact ⟨e2, rfl, o1.trans o2⟩

theorem imageLoop_out {B : Prop} {s0 : Ctx} (hB : ∀ s, Onward s0 s → (takeBytes 16 s).1.sum = 256 → B) {feof : Ctx → Bool} (hf : EofOk feof) {D : Dims} (hD : DimsOk D) :
    ∀ (n m : Nat) (j : Jst), Ctx.left j.e.s < n → JstS B j → FrameS D j → Onward s0 j.e.s →
      Outc (JE B) (imageLoop feof n m j) fun r => ∀ j', r = some j' → JstS B j' ∧ FrameS D j' := by
  intro n
  induction n with
  | zero => intro m j h; omega
  | succ n ih =>
    intro m j hl J F h0
    have next : ∀ (j1 : Jst), InFrame B D j j1 → Ctx.left j1.e.s + 1 ≤ Ctx.left j.e.s → ∀ (M : CM (Nat × Jst)), Outc (JE B) M (fun r => ∃ e', r.2 = { j1 with e := e' } ∧ Onward j1.e.s e'.s) →
        Outc (JE B) (M >>= fun x => match x with | (m, j) => imageLoop feof n m j) fun r => ∀ j', r = some j' → JstS B j' ∧ FrameS D j' := by
      intro j1 h1 hl1 M hM
      refine Outc.bind hM fun r hr => ?_
      obtain ⟨m2, j2⟩ := r
      obtain ⟨e2, h2, o2⟩ := hr
      dsimp only at h2 ⊢
      subst h2
      have := o2.left
      exact ih m2 _ (by show Ctx.left e2.s < n; omega) (h1.s.ent e2) (h1.fr.kept (Kept.ent _ _)) ((h0.trans h1.on).trans o2)
    unfold imageLoop
    split
    · refine Outc.pure fun j' e => ?_
      injection e with e
      subst e
      exact ⟨J, F⟩
    · split
      · refine Outc.bind (process_scan_header_out hD J F) fun r hr => ?_
        cases r with
        | none => exact fun j' e => by cases e
        | some p =>
          obtain ⟨j1, k⟩ := p
          obtain ⟨a1, a2, a3⟩ := hr j1 k rfl
          refine Outc.bind (parse_entropy_out hD a1.s a1.fr a3) fun r hr => ?_
          cases r with
          | none => exact fun j' e => by cases e
          | some j2 =>
            have b1 := hr j2 rfl
            have := b1.on.left
            exact next j2 (a1.trans b1) (by omega) _ (afterScan_out hf j2)
      · split
        · have r1 := get16_reads j.e.s
          have p1 := get16_pos (s := j.e.s)
          rcases e1 : get16be j.e.s with ⟨ld, s1⟩
          rw [e1] at r1 p1
          dsimp only at r1 p1 ⊢
          have r2 := get16_reads s1
          rcases e2 : get16be s1 with ⟨nl, s2⟩
          rw [e2] at r2
          dsimp only at r2 ⊢
          split
          · exact fun j' e => by cases e
          · split
            · exact fun j' e => by cases e
            · have h1 := p1 (by omega)
              have h2 := r2.left
              refine next (j.at s2) ⟨J.at s2, F.kept (Kept.ent _ _), r1.trans r2⟩ (by show Ctx.left s2 + 1 ≤ _; omega) _ ((get_marker_out (j.at s2)).mono fun r hr => ?_)
              obtain ⟨e', h', o', _⟩ := hr
              exact ⟨e', h', o'⟩
        · refine Outc.bind (process_marker_out hB J h0 m) fun r hr => ?_
          cases r with
          | none =>
            refine Outc.pure fun j' e => ?_
            injection e with e
            subst e
            exact ⟨J, F⟩
          | some j1 =>
            obtain ⟨a1, a2⟩ := hr j1 rfl
            refine next j1 ⟨a1.s, F.kept a1.kept, a1.on⟩ a2 _ ((get_marker_out j1).mono fun r hr => ?_)
            obtain ⟨e', h', o', _⟩ := hr
            exact ⟨e', h', o'⟩

theorem decode_jpeg_image_out {B : Prop} {s0 : Ctx} (hB : ∀ s, Onward s0 s → (takeBytes 16 s).1.sum = 256 → B) {feof : Ctx → Bool} (hf : EofOk feof) {mem : JpegMem} :
    Outc (JE B) (decode_jpeg_image mem feof (Jst.start s0)) fun r => ∀ j', r = some j' → j'.progressive = true ∨ ∃ D, DimsOk D ∧ JstS B j' ∧ FrameS D j' := by
  unfold decode_jpeg_image
  have hs := JstS.start B s0
  have J : JstS B { Jst.start s0 with restart := 0, jfif := false, app14 := -1, e := { (Jst.start s0).e with marker := 0xFF } } := ⟨hs.dcl, hs.dc, hs.acl, hs.ac, hs.dql, hs.dq, hs.fl, hs.f, hs.cl, hs.c, hs.ol⟩
  have ho : ∀ o ∈ ({ Jst.start s0 with restart := 0, jfif := false, app14 := -1, e := { (Jst.start s0).e with marker := 0xFF } } : Jst).order, o = 0 := fun o h => List.eq_of_mem_replicate h
  have h0 : Onward s0 ({ Jst.start s0 with restart := 0, jfif := false, app14 := -1, e := { (Jst.start s0).e with marker := 0xFF } } : Jst).e.s := Onward.refl _
  dsimp only
  generalize ({ Jst.start s0 with restart := 0, jfif := false, app14 := -1, e := { (Jst.start s0).e with marker := 0xFF } } : Jst) = j at J ho h0 ⊢
  refine Outc.bind (get_marker_out j) fun r hr => ?_
  obtain ⟨m1, j1⟩ := r
  obtain ⟨e1, h1, o1, _⟩ := hr
  dsimp only at h1 ⊢
  subst h1
  split
  · exact fun j' e => by cases e
  · refine Outc.bind (get_marker_out _) fun r hr => ?_
    obtain ⟨m2, j2⟩ := r
    obtain ⟨e2, h2, o2, _⟩ := hr
    dsimp only at h2 o2 ⊢
    subst h2
    refine Outc.bind (headerLoop_out hB hf _ _ _ (by show Ctx.left e2.s < e2.s.fuel + 1; have := left_fuel e2.s; omega) (J.ent e2) ((h0.trans o1).trans o2)) fun r hr => ?_
    cases r with
    | none => exact fun j' e => by cases e
    | some p =>
      obtain ⟨m3, j3⟩ := p
      have st3 := hr m3 j3 rfl
      dsimp only
      split
      · refine Outc.pure fun j' e => ?_
        injection e with e
        subst e
        exact Or.inl rfl
      · refine Outc.bind (process_frame_header_out st3.s (by rw [st3.kept.order]; exact ho)) fun r hr => ?_
        cases r with
        | none => exact fun j' e => by cases e
        | some j4 =>
          obtain ⟨D, hD, J4, F4, o4⟩ := hr j4 rfl
          refine Outc.bind (get_marker_out j4) fun r hr => ?_
          obtain ⟨m5, j5⟩ := r
          obtain ⟨e5, h5, o5, _⟩ := hr
          dsimp only at h5 ⊢
          subst h5
          refine (imageLoop_out hB hf hD _ _ _ (by show Ctx.left e5.s < e5.s.fuel + 1; have := left_fuel e5.s; omega) (J4.ent e5) (F4.kept (Kept.ent _ _)) ?_).mono fun r hr j' e => ?_
          · exact ((((h0.trans o1).trans o2).trans st3.on).trans o4).trans o5
          · exact Or.inr ⟨D, hD, hr j' e⟩

end FlatCV
