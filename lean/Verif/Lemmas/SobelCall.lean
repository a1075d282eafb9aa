/-
Edge detection: the two passes and the call.
-/
import Verif.Lemmas.SobelNum
import Verif.Lemmas.BlurPass
import Verif.Spec.Call

namespace FlatCV
open Model Spec

/-- The column (row) the code looks at, for any size. -/
def codeNear (n x : Nat) (k : Int) : Nat := (sobelCoord n x k).toNat

theorem sobelCoord_range {n x : Nat} (hn : 0 < n) (hu : IsU32 n) (k : Int) :
    0 ≤ sobelCoord n x k ∧ codeNear n x k < n := by
  have hu' : n < 4294967296 := hu
  have h1 : ∀ z, i32OfU32 (u32OfInt z) < 2147483648 := by
    intro z
    unfold i32OfU32 u32OfInt
    split_ifs <;> omega
  have h1 := h1 (x + k)
  unfold codeNear sobelCoord
  simp only []
  generalize i32OfU32 (u32OfInt (x + k)) = p at *
  have e : ∀ q : Int, 0 ≤ q → q < 2147483648 → u32OfInt q = q.toNat := fun q a b =>
    u32OfInt_eq a (by omega)
  have key : ∀ q : Int, 0 ≤ q → q < 2147483648 →
      0 ≤ (if u32OfInt q ≥ n then i32OfU32 (u32sub n 1) else q) ∧
        (if u32OfInt q ≥ n then i32OfU32 (u32sub n 1) else q).toNat < n := by
    intro q a b
    rw [e q a b]
    split_ifs with c
    · rw [u32sub_eq hu' (by omega), i32OfU32_eq (by omega)]
      omega
    · omega
  by_cases hp : p < 0
  · simp only [hp, if_true]
    exact key 0 (by omega) (by omega)
  · simp only [hp, if_false]
    exact key p (by omega) h1

theorem codeNear_eq {n x : Nat} (hx : x < n) (hn : n < 2147483648) :
    codeNear n x (-1) = x - 1 ∧ codeNear n x 0 = x ∧ codeNear n x 1 = min (x + 1) (n - 1) := by
  unfold codeNear sobelCoord
  rw [i32_wrap (by omega), i32_wrap (by omega), i32_wrap (by omega)]
  simp only []
  have e : ∀ q : Int, 0 ≤ q → q < 4294967296 → u32OfInt q = q.toNat := fun q a b =>
    u32OfInt_eq a (by omega)
  refine ⟨?_, ?_, ?_⟩
  · by_cases hx0 : x = 0
    · subst hx0
      simp only [show ((0 : Nat) : Int) + -1 < 0 by omega, if_true]
      rw [e 0 (by omega) (by omega), if_neg (by omega)]
      rfl
    · simp only [show ¬ (x : Int) + -1 < 0 by omega, if_false]
      rw [e _ (by omega) (by omega), if_neg (by omega)]
      omega
  · simp only [show ¬ (x : Int) + 0 < 0 by omega, if_false]
    rw [e _ (by omega) (by omega), if_neg (by omega)]
    omega
  · simp only [show ¬ (x : Int) + 1 < 0 by omega, if_false]
    rw [e _ (by omega) (by omega)]
    split_ifs with c
    · rw [u32sub_eq (by omega) (by omega), i32OfU32_eq (by omega)]
      omega
    · omega

/-- Squared strength as the code computes it, for any size. -/
def codeSq (w h : Nat) (g : List UInt8) (x y : Nat) : Int :=
  sobelSq (fun x y => ((px w 1 g x y 0).toNat : Int))
    (codeNear w x (-1)) (codeNear w x 0) (codeNear w x 1)
    (codeNear h y (-1)) (codeNear h y 0) (codeNear h y 1)

theorem codeSq_eq {w h : Nat} (hw : w < 2147483648) (hh : h < 2147483648) (g : List UInt8)
    {x y : Nat} (hx : x < w) (hy : y < h) : codeSq w h g x y = edgeSq w h g x y := by
  obtain ⟨a1, a2, a3⟩ := codeNear_eq hx hw
  obtain ⟨b1, b2, b3⟩ := codeNear_eq hy hh
  unfold codeSq edgeSq
  rw [a1, a2, a3, b1, b2, b3]

section
variable {P : Plat} {w h : Nat} {g : List UInt8}

theorem sobel_read (hg : g.length = w * h) (hs : w * h ≤ P.szMax) (hw : 0 < w) (hh : 0 < h)
    (hwu : IsU32 w) (hhu : IsU32 h) (x y : Nat) (k l : Int) :
    rdIn g ((sobelCoord h y l * w + sobelCoord w x k) % P.mod).toNat =
      .ok (px w 1 g (codeNear w x k) (codeNear h y l) 0) := by
  obtain ⟨a0, a1⟩ := sobelCoord_range (x := x) hw hwu k
  obtain ⟨b0, b1⟩ := sobelCoord_range (x := y) hh hhu l
  have ea : sobelCoord w x k = (codeNear w x k : Nat) := by unfold codeNear; omega
  have eb : sobelCoord h y l = (codeNear h y l : Nat) := by unfold codeNear; omega
  rw [ea, eb]
  have hi := idx_lt a1 b1
  have hm := P.lt_mod_iff.2 (le_refl P.szMax)
  have e : (((codeNear h y l : Nat) : Int) * w + (codeNear w x k : Nat)) % P.mod =
      ((codeNear h y l * w + codeNear w x k : Nat) : Int) := by
    push_cast
    refine Int.emod_eq_of_lt (by positivity) ?_
    have : codeNear h y l * w + codeNear w x k < P.mod := by omega
    exact_mod_cast this
  rw [e, Int.toNat_natCast]
  have := getElem?_px (w := w) (ch := 1) (d := g) (h := h) (by omega) a1 b1 (show 0 < 1 by omega)
  simp only [Nat.mul_one, Nat.add_zero] at this
  unfold rdIn
  rw [this]

theorem sobelGrad_ok (hg : g.length = w * h) (hs : w * h ≤ P.szMax) (hw : 0 < w) (hh : 0 < h)
    (hwu : IsU32 w) (hhu : IsU32 h) (x y : Nat) :
    ∃ gx gy : Int, sobelGrad P w h g y x = .ok (gx, gy) ∧ |gx| ≤ 1020 ∧ |gy| ≤ 1020 ∧
      gx * gx + gy * gy = codeSq w h g x y := by
  unfold sobelGrad codeSq sobelSq
  have rdx := fun k l => sobel_read hg hs hw hh hwu hhu x y k l
  generalize hv : (fun k l => px w 1 g (codeNear w x k) (codeNear h y l) 0) = v
  have hv' : ∀ k l, px w 1 g (codeNear w x k) (codeNear h y l) 0 = v k l := fun k l => by rw [← hv]
  simp only [hv'] at rdx ⊢
  have b : ∀ k l, ((v k l).toNat : Int) ≤ 255 := fun k l => by
    have := (v k l).toNat_lt
    omega
  have step : ∀ (s : Int × Int) (k l a b' : Int) (idx : Nat), |s.1| ≤ 100000 → |s.2| ≤ 100000 →
      |a| ≤ 2 → |b'| ≤ 2 → rdIn sobel_x idx = .ok a → rdIn sobel_y idx = .ok b' →
      (do let pixel ← rdIn g ((sobelCoord h y l * w + sobelCoord w x k) % P.mod).toNat
          let a ← rdIn sobel_x idx
          let gx ← i32 (s.1 + (← i32 (pixel.toNat * a)))
          let b ← rdIn sobel_y idx
          let gy ← i32 (s.2 + (← i32 (pixel.toNat * b)))
          pure (gx, gy) : CM (Int × Int)) =
        .ok (s.1 + (v k l).toNat * a, s.2 + (v k l).toNat * b') := by
    intro s k l a b' idx h1 h2 h3 h4 ea eb
    rw [rdx, ok_bind, ea, ok_bind]
    have bb := b k l
    have b0 : (0 : Int) ≤ (v k l).toNat := by positivity
    generalize ((v k l).toNat : Int) = p at *
    rw [abs_le] at *
    have m1 : -510 ≤ p * a ∧ p * a ≤ 510 := ⟨by nlinarith, by nlinarith⟩
    have m2 : -510 ≤ p * b' ∧ p * b' ≤ 510 := ⟨by nlinarith, by nlinarith⟩
    rw [i32_ok (by unfold IsI32; omega), ok_bind, i32_ok (by unfold IsI32; omega), ok_bind, eb, ok_bind,
      i32_ok (by unfold IsI32; omega), ok_bind, i32_ok (by unfold IsI32; omega), ok_bind]
    rfl
  have c : ∀ k l, (0 : Int) ≤ (v k l).toNat := fun k l => by positivity
  have row : ∀ (j : Nat) (s : Int × Int) (a0 a1 a2 b0 b1 b2 : Int), |s.1| ≤ 90000 → |s.2| ≤ 90000 →
      |a0| ≤ 2 → |a1| ≤ 2 → |a2| ≤ 2 → |b0| ≤ 2 → |b1| ≤ 2 → |b2| ≤ 2 →
      rdIn sobel_x (j * 3 + 0) = .ok a0 → rdIn sobel_x (j * 3 + 1) = .ok a1 →
      rdIn sobel_x (j * 3 + 2) = .ok a2 → rdIn sobel_y (j * 3 + 0) = .ok b0 →
      rdIn sobel_y (j * 3 + 1) = .ok b1 → rdIn sobel_y (j * 3 + 2) = .ok b2 →
      (forN 3 s fun i s => (do
          let pixel ← rdIn g ((sobelCoord h y ((j : Int) - 1) * w + sobelCoord w x ((i : Int) - 1)) % P.mod).toNat
          let a ← rdIn sobel_x (j * 3 + i)
          let gx ← i32 (s.1 + (← i32 (pixel.toNat * a)))
          let b ← rdIn sobel_y (j * 3 + i)
          let gy ← i32 (s.2 + (← i32 (pixel.toNat * b)))
          pure (gx, gy) : CM (Int × Int))) =
        .ok (s.1 + (v (-1) (j - 1)).toNat * a0 + (v 0 (j - 1)).toNat * a1 + (v 1 (j - 1)).toNat * a2,
          s.2 + (v (-1) (j - 1)).toNat * b0 + (v 0 (j - 1)).toNat * b1 + (v 1 (j - 1)).toNat * b2) := by
    intro j s a0 a1 a2 b0 b1 b2 h1 h2 p0 p1 p2 q0 q1 q2 e0 e1 e2 f0 f1 f2
    simp only [forN, ok_bind]
    have k0 : (((0 : Nat) : Int) - 1) = -1 := by omega
    have k1 : (((1 : Nat) : Int) - 1) = 0 := by omega
    have k2 : (((2 : Nat) : Int) - 1) = 1 := by omega
    have z0 := b (-1) (j - 1)
    have z1 := b 0 (j - 1)
    have y0 := c (-1) (j - 1)
    have y1 := c 0 (j - 1)
    simp only [k0, k1, k2]
    rw [step s (-1) (j - 1) a0 b0 (j * 3 + 0) (by omega) (by omega) p0 q0 e0 f0, ok_bind,
      step _ 0 (j - 1) a1 b1 (j * 3 + 1) (by dsimp only; rw [abs_le] at *; constructor <;> nlinarith)
        (by dsimp only; rw [abs_le] at *; constructor <;> nlinarith) p1 q1 e1 f1, ok_bind,
      step _ 1 (j - 1) a2 b2 (j * 3 + 2) (by dsimp only; rw [abs_le] at *; constructor <;> nlinarith)
        (by dsimp only; rw [abs_le] at *; constructor <;> nlinarith) p2 q2 e2 f2]
  have l0 : (((0 : Nat) : Int) - 1) = -1 := by omega
  have l1 : (((1 : Nat) : Int) - 1) = 0 := by omega
  have l2 : (((2 : Nat) : Int) - 1) = 1 := by omega
  have r0 := row 0 (0, 0) (-1) 0 1 (-1) (-2) (-1) (by simp) (by simp) (by simp) (by simp) (by simp)
    (by simp) (by simp) (by simp) rfl rfl rfl rfl rfl rfl
  have bs := b (-1) (-1)
  have bs := b (-1) 0
  have bs := b (-1) 1
  have bs := b 0 (-1)
  have bs := b 0 0
  have bs := b 0 1
  have bs := b 1 (-1)
  have bs := b 1 0
  have bs := b 1 1
  have r1 := fun s h1 h2 => row 1 s (-2) 0 2 0 0 0 h1 h2 (by simp) (by simp) (by simp)
    (by simp) (by simp) (by simp) rfl rfl rfl rfl rfl rfl
  have r2 := fun s h1 h2 => row 2 s (-1) 0 1 1 2 1 h1 h2 (by simp) (by simp) (by simp)
    (by simp) (by simp) (by simp) rfl rfl rfl rfl rfl rfl
  rw [show (3 : Nat) = 2 + 1 from rfl, forN_succ, show (2 : Nat) = 1 + 1 from rfl, forN_succ, forN_succ, forN_zero, ok_bind]
  rw [show (1 + 1 + 1 : Nat) = 3 from rfl, r0, ok_bind, r1 _ (by rw [l0]; dsimp only; rw [abs_le]; omega) (by rw [l0]; dsimp only; rw [abs_le]; omega), ok_bind]
  rw [show (1 + 1 : Nat) = 2 from rfl, r2 _ (by rw [l0, l1]; dsimp only; rw [abs_le]; omega) (by rw [l0, l1]; dsimp only; rw [abs_le]; omega)]
  refine ⟨_, _, rfl, ?_, ?_, ?_⟩
  · rw [l0, l1, l2, abs_le]
    omega
  · rw [l0, l1, l2, abs_le]
    omega
  · rw [l0, l1, l2]
    ring

theorem codeSq_range (hg : g.length = w * h) (hs : w * h ≤ P.szMax) (hw : 0 < w) (hh : 0 < h)
    (hwu : IsU32 w) (hhu : IsU32 h) (x y : Nat) :
    0 ≤ codeSq w h g x y ∧ codeSq w h g x y ≤ 2080800 := by
  obtain ⟨gx, gy, _, h1, h2, e⟩ := sobelGrad_ok hg hs hw hh hwu hhu x y
  rw [← e]
  rw [abs_le] at h1 h2
  constructor <;> nlinarith

/-- Root of pixel number `k`. -/
def rootAt (w h : Nat) (g : List UInt8) (k : Nat) : ℚ := rootOf (codeSq w h g (k % w) (k / w))

/-- After `k` pixels of the first pass. -/
structure FirstInv (w h : Nat) (g : List UInt8) (k : Nat) (s : SobelState) : Prop where
  len : s.mags.length = w * h
  done : ∀ i, i < k → s.mags[i]? = some (some (rootAt w h g i))
  zero : k = 0 → s.min = .inf false ∧ s.max = 0
  pos : 0 < k → ∃ a, a < k ∧ ∃ b, b < k ∧ s.min = .fin (rootAt w h g a) ∧
    s.max = rootAt w h g b ∧ ∀ i, i < k → rootAt w h g a ≤ rootAt w h g i ∧
      rootAt w h g i ≤ rootAt w h g b

theorem FirstInv.step {k : Nat} {s : SobelState} (I : FirstInv w h g k s) (hk : k < w * h) :
    FirstInv w h g (k + 1) ⟨s.mags.set k (some (rootAt w h g k)),
      if Dbl.lt (.fin (rootAt w h g k)) s.min then .fin (rootAt w h g k) else s.min,
      if rootAt w h g k > s.max then rootAt w h g k else s.max⟩ := by
  refine ⟨by simp [I.len], ?_, by omega, ?_⟩
  · intro i hi
    by_cases e : i = k
    · subst e
      simp [I.len, hk]
    · dsimp only
      rw [List.getElem?_set_ne (by omega)]
      exact I.done i (by omega)
  · intro _
    rcases Nat.eq_zero_or_pos k with h0 | h0
    · subst h0
      obtain ⟨e1, e2⟩ := I.zero rfl
      refine ⟨0, by omega, 0, by omega, ?_, ?_, ?_⟩
      · simp [e1, Dbl.lt]
      · have := rootOf_nonneg (codeSq w h g (0 % w) (0 / w))
        dsimp only
        rw [e2]
        split_ifs with c
        · rfl
        · exact le_antisymm this (not_lt.1 c)
      · intro i hi
        have : i = 0 := by omega
        subst this
        exact ⟨le_refl _, le_refl _⟩
    · obtain ⟨a, ha, b, hb, e1, e2, hall⟩ := I.pos h0
      have key : ∀ (u v : ℕ), rootAt w h g u ≤ rootAt w h g k → rootAt w h g u ≤ rootAt w h g a →
          rootAt w h g k ≤ rootAt w h g v → rootAt w h g b ≤ rootAt w h g v →
          ∀ i, i < k + 1 → rootAt w h g u ≤ rootAt w h g i ∧ rootAt w h g i ≤ rootAt w h g v := by
        intro u v c1 c2 c3 c4 i hi
        by_cases e : i = k
        · subst e; exact ⟨c1, c3⟩
        · have := hall i (by omega)
          exact ⟨c2.trans this.1, this.2.trans c4⟩
      dsimp only
      rw [e1, e2]
      simp only [Dbl.lt, decide_eq_true_eq]
      by_cases c1 : rootAt w h g k < rootAt w h g a
      · by_cases c2 : rootAt w h g k > rootAt w h g b
        · exact ⟨k, by omega, k, by omega, by rw [if_pos c1], by rw [if_pos c2],
            key k k le_rfl c1.le le_rfl c2.le⟩
        · exact ⟨k, by omega, b, by omega, by rw [if_pos c1], by rw [if_neg c2],
            key k b le_rfl c1.le (not_lt.1 c2) le_rfl⟩
      · by_cases c2 : rootAt w h g k > rootAt w h g b
        · exact ⟨a, by omega, k, by omega, by rw [if_neg c1], by rw [if_pos c2],
            key a k (not_lt.1 c1) le_rfl le_rfl c2.le⟩
        · exact ⟨a, by omega, b, by omega, by rw [if_neg c1], by rw [if_neg c2],
            key a b (not_lt.1 c1) le_rfl (not_lt.1 c2) le_rfl⟩

theorem rootAt_idx {x y : Nat} (hx : x < w) : rootAt w h g (y * w + x) = rootOf (codeSq w h g x y) := by
  unfold rootAt
  rw [Nat.mul_comm y w, Nat.mul_add_mod, Nat.mod_eq_of_lt hx, Nat.mul_add_div (by omega),
    Nat.div_eq_of_lt hx, Nat.add_zero]

theorem sobelFirst_ok (hg : g.length = w * h) (hs : w * h ≤ P.szMax) (hw : 0 < w) (hh : 0 < h)
    (hwu : IsU32 w) (hhu : IsU32 h) {mags : Cells ℚ} (hm : mags.length = w * h) :
    ∃ s, sobelFirst P w h g mags = .ok s ∧ FirstInv w h g (w * h) s := by
  have main : Ok (sobelFirst P w h g mags) (FirstInv w h g (h * w)) := by
    unfold sobelFirst
    rw [forU32_eq hhu]
    refine forN_ok (fun y s => FirstInv w h g (y * w) s) ?_ ?_
    · rw [Nat.zero_mul]
      exact ⟨hm, by omega, fun _ => ⟨rfl, rfl⟩, by omega⟩
    · intro y hy s I
      rw [forU32_eq hwu, Nat.succ_mul]
      refine forN_ok (fun x s => FirstInv w h g (y * w + x) s) I ?_
      intro x hx s I
      have hi := idx_lt hx hy
      obtain ⟨gx, gy, e, b1, b2, e2⟩ := sobelGrad_ok hg hs hw hh hwu hhu x y
      unfold sobelPixel
      rw [e, ok_bind]
      dsimp only
      rw [sobelMag_ok b1 b2, ok_bind, e2, ← rootAt_idx (w := w) (h := h) (g := g) (y := y) hx,
        P.sz_eq' (by omega), wr_ok (by rw [I.len]; omega), ok_bind]
      exact Ok.pure (I.step (by omega))
  rw [Nat.mul_comm] at main
  exact main

/-- The bytes of the edge map. -/
def edgeBytes (w h : Nat) (g : List UInt8) (mn range : ℚ) : List UInt8 :=
  mkImg w h 1 fun x y _ => UInt8.ofNat ⌊levelOf mn range (rootOf (codeSq w h g x y))⌋.toNat

theorem sobelSecond_ok (hs : w * h ≤ P.szMax)
    (hwu : IsU32 w) (hhu : IsU32 h) {s : SobelState} (I : FirstInv w h g (w * h) s) {mn range : ℚ}
    (hmn : s.min = .fin mn) (hmx : s.max - mn ≤ 2000) (hnn : 0 ≤ s.max - mn)
    (hr : range = if Fmt.b64.rnd (s.max - mn) = 0 then 1 else Fmt.b64.rnd (s.max - mn))
    (hb : ∀ i, i < w * h → mn ≤ rootAt w h g i ∧ rootAt w h g i ≤ s.max) {out : Cells UInt8}
    (ho : out.length = w * h) :
    sobelSecond P w h s out = .ok ((edgeBytes w h g mn range).map some) := by
  have hol : (edgeBytes w h g mn range).length = w * h := by
    unfold edgeBytes
    rw [mkImg_length, Nat.mul_one]
  have hrn : 0 ≤ Fmt.b64.rnd (s.max - mn) := rnd_nonneg _ hnn
  have hpos : 0 < range := by
    rw [hr]
    split_ifs with c
    · norm_num
    · exact lt_of_le_of_ne hrn (Ne.symm c)
  have hle : Fmt.b64.rnd (s.max - mn) ≤ range := by
    rw [hr]
    split_ifs with c
    · rw [c]; norm_num
    · exact le_refl _
  have main : Ok (sobelSecond P w h s out) (fun c => c = (edgeBytes w h g mn range).map some) := by
    unfold sobelSecond
    rw [hmn]
    simp only []
    rw [f64_ok (by rw [abs_of_nonneg hnn]; exact hmx.trans (by norm_num)), ok_bind, ← hr,
      forU32_eq hhu]
    simp only [forU32_eq (n := w) hwu]
    refine (Filled.loop2 (out := edgeBytes w h g mn range) (W := fun _ => False)
      (fun y x k => k = y * w + x) ⟨by rw [ho, hol], fun _ _ hf => hf.elim⟩ ?_).mono ?_
    · intro y hy x hx V t ht
      have hi := idx_lt hx hy
      have hbi := hb (y * w + x) (by omega)
      rw [P.sz_eq' (by omega)]
      have er : rd s.mags (y * w + x) = .ok (rootAt w h g (y * w + x)) := by
        unfold rd
        rw [I.done _ (by omega)]
      rw [er, ok_bind, (sobelByte_ok hbi.1 (by linarith [hbi.2]) hpos
        ((rnd_mono _ (by linarith [hbi.2])).trans hle)).1, ok_bind]
      refine ht.wr ?_
      have := mkImg_getElem? (ch := 1) (f := fun x y _ =>
        UInt8.ofNat ⌊levelOf mn range (rootOf (codeSq w h g x y))⌋.toNat) hx hy (show 0 < 1 by omega)
      unfold edgeBytes
      rw [rootAt_idx hx]
      simpa using this
    · intro c hc
      refine hc.done ?_
      intro k hk
      rw [hol] at hk
      have hw0 : 0 < w := by
        rcases Nat.eq_zero_or_pos w with rfl | h0
        · simp at hk
        · exact h0
      refine Or.inr ⟨k / w, ?_, k % w, Nat.mod_lt _ hw0, ?_⟩
      · exact Nat.div_lt_of_lt_mul hk
      · have := Nat.div_add_mod k w
        rw [Nat.mul_comm] at this
        omega
  obtain ⟨r, e, er⟩ := main
  rw [e, er]

/-- The call on gray data, for any size. -/
theorem sobelBody_ok (hg : g.length = w * h) (hs : w * h ≤ P.szMax) (hw : 0 < w) (hh : 0 < h)
    (hwu : IsU32 w) (hhu : IsU32 h) :
    ∃ out, Yields (sobelBody P w h (w * h) g) out ∧ EdgeMap w h (codeSq w h g) out ∧
      EdgeScaled w h (codeSq w h g) out := by
  obtain ⟨s, e1, I⟩ := sobelFirst_ok (P := P) hg hs hw hh hwu hhu
    (mags := List.replicate (w * h) none) (by simp)
  have hpos : 0 < w * h := Nat.mul_pos hw hh
  obtain ⟨a, ha, b, hb, m1, m2, hall⟩ := I.pos hpos
  set range : ℚ := if Fmt.b64.rnd (s.max - rootAt w h g a) = 0 then 1
    else Fmt.b64.rnd (s.max - rootAt w h g a) with hr
  have hab := hall b hb
  have rng := fun x y => codeSq_range (P := P) hg hs hw hh hwu hhu x y
  have rle : ∀ i, rootAt w h g i ≤ 1500 := fun i => rootOf_le (rng _ _).2 (rng _ _).1
  have rnn : ∀ i, 0 ≤ rootAt w h g i := fun i => rootOf_nonneg _
  have e2 := sobelSecond_ok (P := P) hs hwu hhu I m1 (by rw [m2]; linarith [rle b, rnn a])
    (by rw [m2]; linarith [hab.1]) hr (by rw [m2]; exact hall) (out := List.replicate (w * h) none)
    (by simp)
  have hrp : 0 < range := by
    rw [hr]
    split_ifs with c
    · norm_num
    · exact lt_of_le_of_ne (rnd_nonneg _ (by rw [m2]; linarith [hab.1])) (Ne.symm c)
  have hbyte : ∀ x, x < w → ∀ y, y < h → px w 1 (edgeBytes w h g (rootAt w h g a) range) x y 0 =
      UInt8.ofNat ⌊levelOf (rootAt w h g a) range (rootOf (codeSq w h g x y))⌋.toNat := by
    intro x hx y hy
    unfold edgeBytes
    rw [px_mkImg hx hy (by omega)]
  have hmm : ∀ x, x < w → ∀ y, y < h → rootAt w h g a ≤ rootOf (codeSq w h g x y) ∧
      rootOf (codeSq w h g x y) ≤ rootAt w h g b := by
    intro x hx y hy
    rw [← rootAt_idx hx]
    exact hall _ (by have := idx_lt hx hy; omega)
  have hxy : ∀ k, k < w * h → k % w < w ∧ k / w < h := fun k hk =>
    ⟨Nat.mod_lt _ hw, Nat.div_lt_of_lt_mul hk⟩
  have hlev : ∀ x, x < w → ∀ y, y < h → ⌊levelOf (rootAt w h g a) range (rootOf (codeSq w h g x y))⌋.toNat ≤ 255 := by
    intro x hx y hy
    have := hmm x hx y hy
    refine (sobelByte_ok this.1 ?_ hrp ?_).2
    · linarith [rle b, rnn a, this.2]
    · have h1 : Fmt.b64.rnd (rootOf (codeSq w h g x y) - rootAt w h g a) ≤
          Fmt.b64.rnd (s.max - rootAt w h g a) := rnd_mono _ (by rw [m2]; linarith [this.2])
      refine h1.trans ?_
      rw [hr]
      split_ifs with c
      · rw [c]; norm_num
      · exact le_refl _
  -- strengths and roots are ordered alike
  have inj : ∀ {s t : ℤ}, 0 ≤ s → t ≤ 2080800 → rootOf t ≤ rootOf s → t ≤ s := by
    intro s t h0 h1 hle
    by_contra hc
    have := rootOf_gap h0 (not_le.1 hc) h1
    linarith
  have weak : ∀ x, x < w → ∀ y, y < h → (∀ x', x' < w → ∀ y', y' < h →
      codeSq w h g x y ≤ codeSq w h g x' y') →
      px w 1 (edgeBytes w h g (rootAt w h g a) range) x y 0 = 0 := by
    intro x hx y hy hmin
    have h1 := rootOf_mono (hmin _ (hxy a ha).1 _ (hxy a ha).2) (rng x y).1
    have h2 : rootOf (codeSq w h g x y) = rootAt w h g a := le_antisymm h1 (hmm x hx y hy).1
    rw [hbyte x hx y hy, h2, levelOf_min]
    rfl
  refine ⟨edgeBytes w h g (rootAt w h g a) range, ?_, ⟨?_, ?_, weak, ?_, ?_⟩, ?_⟩
  · intro hp
    unfold sobelBody
    by_cases f0 : hp.fails hp.next
    · simp [Returns, HOk, hm_bind, malloc, f0, hm_pure, OutOfMemory]
      exact ⟨hp.next, le_refl _, le_refl _, f0⟩
    · by_cases f1 : hp.fails (hp.next + 1)
      · simp [Returns, HOk, hm_bind, malloc, f0, f1, free, hm_pure, OutOfMemory]
        exact ⟨by omega, hp.next + 1, by omega, by omega, f1⟩
      · simp [Returns, HOk, hm_bind, malloc, f0, f1, use, e1, e2, free, hm_pure, FreshResult, Except.map]
  · unfold edgeBytes
    rw [mkImg_length, Nat.mul_one]
  · intro hc x hx y hy
    exact weak x hx y hy fun x' hx' y' hy' => (hc x hx y hy x' hx' y' hy').le
  · rintro x hx y hy hmax ⟨x', hx', y', hy', hlt⟩
    have h1 := rootOf_mono (hmax _ (hxy b hb).1 _ (hxy b hb).2) (rng _ _).1
    have h2 : rootOf (codeSq w h g x y) = rootAt w h g b := le_antisymm (hmm x hx y hy).2 h1
    have h3 := rootOf_gap (rng x' y').1 hlt (rng x y).2
    have h4 := (hmm x' hx' y' hy').1
    have h5 : 0 < Fmt.b64.rnd (s.max - rootAt w h g a) := by
      have : (1 : ℚ) / 4096 ≤ s.max - rootAt w h g a := by rw [m2, ← h2]; linarith
      have e : Fmt.b64.rnd (1 / 4096) = 1 / 4096 := by
        have := rnd_exact Fmt.b64 (m := 1) (e := -12) (by decide) (by decide)
        have h : ((1 : ℤ) : ℚ) * 2 ^ (-12 : ℤ) = 1 / 4096 := by norm_num
        rwa [h] at this
      have := le_rnd Fmt.b64 this e
      linarith [show (0 : ℚ) < 1 / 4096 by norm_num]
    have h6 : range = Fmt.b64.rnd (rootAt w h g b - rootAt w h g a) := by
      rw [hr, if_neg h5.ne', m2]
    rw [m2] at h5
    rw [hbyte x hx y hy, h2, h6, levelOf_max h5, show ⌊(255 : ℚ)⌋ = 255 by norm_num]
    rfl
  · intro x hx y hy x' hx' y' hy' hle
    have h1 := levelOf_mono (mn := rootAt w h g a) (rootOf_mono hle (rng x y).1) hrp
    have h2 := Int.toNat_le_toNat (Int.floor_le_floor h1)
    have h3 := hlev x hx y hy
    have h4 := hlev x' hx' y' hy'
    rw [hbyte x hx y hy, hbyte x' hx' y' hy', UInt8.le_iff_toNat_le, UInt8.toNat_ofNat',
      UInt8.toNat_ofNat', Nat.mod_eq_of_lt (by omega), Nat.mod_eq_of_lt (by omega)]
    exact h2
  · rintro lo hi hlt ⟨xl, hxl, yl, hyl, el⟩ ⟨xh, hxh, yh, hyh, eh⟩ hbd x hx y hy
    have ra : rootAt w h g a = rootOf lo := by
      refine le_antisymm ?_ ?_
      · rw [← el]; exact (hmm xl hxl yl hyl).1
      · exact rootOf_mono (hbd _ (hxy a ha).1 _ (hxy a ha).2).1 (by rw [← el]; exact (rng _ _).1)
    have rb : rootAt w h g b = rootOf hi := by
      refine le_antisymm ?_ ?_
      · exact rootOf_mono (hbd _ (hxy b hb).1 _ (hxy b hb).2).2 (rng _ _).1
      · rw [← eh]; exact (hmm xh hxh yh hyh).2
    have h0 : 0 ≤ lo := by rw [← el]; exact (rng _ _).1
    have h8 : hi ≤ 2080800 := by rw [← eh]; exact (rng _ _).2
    have h3 := rootOf_gap h0 hlt h8
    have h5 : 0 < Fmt.b64.rnd (s.max - rootAt w h g a) := by
      have : (1 : ℚ) / 4096 ≤ s.max - rootAt w h g a := by rw [m2, ra, rb]; linarith
      have e : Fmt.b64.rnd (1 / 4096) = 1 / 4096 := by
        have := rnd_exact Fmt.b64 (m := 1) (e := -12) (by decide) (by decide)
        have h : ((1 : ℤ) : ℚ) * 2 ^ (-12 : ℤ) = 1 / 4096 := by norm_num
        rwa [h] at this
      have := le_rnd Fmt.b64 this e
      linarith [show (0 : ℚ) < 1 / 4096 by norm_num]
    have h6 : range = Fmt.b64.rnd (rootOf hi - rootOf lo) := by
      rw [hr, if_neg h5.ne', m2, ra, rb]
    have near := abs_le.1 (levelOf_near h0 (hbd x hx y hy).1 (hbd x hx y hy).2 hlt h8)
    have h4 := hlev x hx y hy
    have h7 : 0 ≤ levelOf (rootAt w h g a) range (rootOf (codeSq w h g x y)) :=
      levelOf_nonneg (hmm x hx y hy).1 hrp
    rw [hbyte x hx y hy, UInt8.toNat_ofNat', Nat.mod_eq_of_lt (by omega)]
    rw [ra, h6] at h4 h7 ⊢
    generalize hL : levelOf (rootOf lo) (Fmt.b64.rnd (rootOf hi - rootOf lo))
      (rootOf (codeSq w h g x y)) = L at *
    have f0 : 0 ≤ ⌊L⌋ := Int.floor_nonneg.2 h7
    have f1 : ((⌊L⌋.toNat : ℕ) : ℝ) = ((⌊L⌋ : ℚ) : ℝ) := by
      have : ((⌊L⌋.toNat : ℕ) : ℤ) = ⌊L⌋ := Int.toNat_of_nonneg f0
      rw [Rat.cast_intCast]
      exact_mod_cast congrArg (Int.cast (R := ℝ)) this
    have f2 : ((⌊L⌋ : ℚ) : ℝ) ≤ (L : ℝ) := Rat.cast_le.2 (Int.floor_le L)
    have f3 : (L : ℝ) < ((⌊L⌋ + 1 : ℚ) : ℝ) := Rat.cast_lt.2 (Int.lt_floor_add_one L)
    push_cast at f3 f2
    rw [f1]
    push_cast
    constructor <;> linarith [near.1, near.2]
end

end FlatCV
