/-
Corner response: the whole call on the heap.
-/
import Verif.Lemmas.FoerstnerLoops
import Verif.Spec.Call
import Mathlib.Data.List.Perm.Basic

namespace FlatCV
open Model Spec

/-- A heap during a call: `m` allocations have been requested since `hp`, of which those numbered
`J` are live. -/
def duringCall (hp : Heap) (m : Nat) (J : List Nat) : Heap := ⟨hp.next + m, J.map (hp.next + ·) ++ hp.live, hp.fails⟩

theorem duringCall_start (hp : Heap) : hp = duringCall hp 0 [] := by cases hp; rfl

theorem during_malloc {α β : Type} {hp : Heap} {m n : Nat} {J : List Nat} {f : Option (Buf α) → HM β}
    {Q : β → Heap → Prop} (hn : hp.fails (hp.next + m) = true → HOk (f none) (duringCall hp (m + 1) J) Q)
    (hs : HOk (f (some ⟨hp.next + m, List.replicate n none⟩)) (duringCall hp (m + 1) (m :: J)) Q) :
    HOk (malloc α n >>= f) (duringCall hp m J) Q := by
  refine HOk.bind ?_ (Q := Q) (P := fun r h' => (r = none ∧ hp.fails (hp.next + m) = true ∧ h' = duringCall hp (m + 1) J) ∨
    (r = some ⟨hp.next + m, List.replicate n none⟩ ∧ h' = duringCall hp (m + 1) (m :: J))) ?_
  · unfold malloc
    by_cases hf : hp.fails (hp.next + m) = true
    · exact ⟨none, _, if_pos hf, Or.inl ⟨rfl, hf, rfl⟩⟩
    · exact ⟨_, _, if_neg hf, Or.inr ⟨rfl, rfl⟩⟩
  · rintro r h' (⟨rfl, hf, rfl⟩ | ⟨rfl, rfl⟩)
    · exact hn hf
    · exact hs

theorem during_calloc {α β : Type} {hp : Heap} {m n : Nat} {z : α} {J : List Nat} {f : Option (Buf α) → HM β}
    {Q : β → Heap → Prop} (hn : hp.fails (hp.next + m) = true → HOk (f none) (duringCall hp (m + 1) J) Q)
    (hs : HOk (f (some ⟨hp.next + m, List.replicate n (some z)⟩)) (duringCall hp (m + 1) (m :: J)) Q) :
    HOk (calloc n z >>= f) (duringCall hp m J) Q := by
  refine HOk.bind ?_ (Q := Q) (P := fun r h' => (r = none ∧ hp.fails (hp.next + m) = true ∧ h' = duringCall hp (m + 1) J) ∨
    (r = some ⟨hp.next + m, List.replicate n (some z)⟩ ∧ h' = duringCall hp (m + 1) (m :: J))) ?_
  · unfold calloc
    by_cases hf : hp.fails (hp.next + m) = true
    · exact ⟨none, _, if_pos hf, Or.inl ⟨rfl, hf, rfl⟩⟩
    · exact ⟨_, _, if_neg hf, Or.inr ⟨rfl, rfl⟩⟩
  · rintro r h' (⟨rfl, hf, rfl⟩ | ⟨rfl, rfl⟩)
    · exact hn hf
    · exact hs

theorem during_use {α β : Type} {hp : Heap} {m : Nat} {J K : List Nat} {c : CM α} {v : α} {f : α → HM β}
    {Q : β → Heap → Prop} (hc : c = .ok v) (hK : ∀ i ∈ K, i ∈ J) (hs : HOk (f v) (duringCall hp m J) Q) :
    HOk (use (K.map (hp.next + ·)) c >>= f) (duringCall hp m J) Q := by
  refine HOk.bind (P := fun r h' => r = v ∧ h' = duringCall hp m J) ?_ ?_
  · refine ⟨v, duringCall hp m J, ?_, rfl, rfl⟩
    unfold use
    rw [if_pos, hc]
    · intro i hi
      obtain ⟨j, hj, rfl⟩ := List.mem_map.1 hi
      exact List.mem_append_left _ (List.mem_map_of_mem (hK j hj))
  · rintro r h' ⟨rfl, rfl⟩
    exact hs

theorem freeAll_during {hp : Heap} {m : Nat} (K : List Nat) (L : List (Option Nat)) :
    ∀ J : List Nat, J.Perm (L.filterMap id ++ K) → ∃ J', J'.Perm K ∧
      freeAll (L.map (Option.map (hp.next + ·))) (duringCall hp m J) = .ok ((), duringCall hp m J') := by
  induction L with
  | nil => intro J hJ; exact ⟨J, hJ, rfl⟩
  | cons o L ih =>
    intro J hJ
    cases o with
    | none => exact ih J (by simpa using hJ)
    | some i =>
      have hJ' : J.Perm (i :: (L.filterMap id ++ K)) := by simpa using hJ
      have hm : i ∈ J := hJ'.mem_iff.2 (List.mem_cons_self)
      obtain ⟨J', h1, h2⟩ := ih (J.erase i) (by
        have := hJ'.erase i
        rwa [List.erase_cons_head] at this)
      refine ⟨J', h1, ?_⟩
      have hinj : Function.Injective (hp.next + ·) := fun a b hab => by simpa using hab
      have e : free (hp.next + i) (duringCall hp m J) = .ok ((), duringCall hp m (J.erase i)) := by
        unfold free duringCall
        rw [if_pos (List.mem_append_left _ (List.mem_map_of_mem hm))]
        rw [List.erase_append_left _ (List.mem_map_of_mem (f := (hp.next + ·)) hm), List.map_erase hinj]
      show (free (hp.next + i) >>= fun _ => freeAll (L.map (Option.map (hp.next + ·)))) (duringCall hp m J) = _
      rw [hm_bind, e]
      exact h2

/-- What `Returns` promises about the final heap. -/
def callPost {β : Type} (hp : Heap) (Q : Cells β → Prop) : Option (Buf β) → Heap → Prop := fun r h' =>
  match r with
  | none => OutOfMemory hp h'
  | some b => FreshResult hp h' b ∧ Q b.cells

theorem returns_of_post {β : Type} {m : HM (Option (Buf β))} {hp : Heap} {Q : Cells β → Prop}
    (h : HOk m hp (callPost hp Q)) : Returns m hp Q := by
  obtain ⟨r, h', e, hq⟩ := h
  refine ⟨r, h', e, ?_⟩
  cases r
  · exact hq
  · exact hq

/-- Every exit on a failed allocation. -/
theorem during_fail {β : Type} {hp : Heap} {m i : Nat} {J : List Nat} (L : List (Option Nat)) {Q : Cells β → Prop}
    (hJ : J.Perm (L.filterMap id)) (hi : i < m) (hf : hp.fails (hp.next + i) = true) :
    HOk (freeAll (L.map (Option.map (hp.next + ·))) >>= fun _ => (pure none : HM (Option (Buf β))))
      (duringCall hp m J) (callPost hp Q) := by
  obtain ⟨J', h1, h2⟩ := freeAll_during (hp := hp) (m := m) [] L J (by simpa using hJ)
  rw [List.perm_nil.1 h1] at h2
  refine ⟨none, duringCall hp m [], ?_, rfl, rfl, Nat.le_add_right _ _, hp.next + i, by omega, ?_, hf⟩
  · rw [hm_bind, h2]
    rfl
  · show hp.next + i < hp.next + m
    omega

theorem during_done {β : Type} {hp : Heap} {m i : Nat} {J : List Nat} {c : Cells β} (L : List (Option Nat))
    {Q : Cells β → Prop} (hJ : J.Perm (L.filterMap id ++ [i])) (hi : i < m) (hq : Q c) :
    HOk (freeAll (L.map (Option.map (hp.next + ·))) >>= fun _ => (pure (some ⟨hp.next + i, c⟩) : HM (Option (Buf β))))
      (duringCall hp m J) (callPost hp Q) := by
  obtain ⟨J', h1, h2⟩ := freeAll_during (hp := hp) (m := m) [i] L J hJ
  rw [List.perm_singleton.1 h1] at h2
  refine ⟨some ⟨hp.next + i, c⟩, duringCall hp m [i], ?_, ⟨rfl, rfl, Nat.le_add_right _ _, ?_⟩, hq⟩
  · rw [hm_bind, h2]
    rfl
  · show hp.next + i < hp.next + m
    omega

section
variable {P : Plat} {w h : Nat} {d : List UInt8}

/-- The computed measures. -/
def measW (w h k : Nat) (d : List UInt8) (x y : Nat) : ℚ :=
  wF (Fmt.b64.rnd (tensor w h k (slopeX w h d) (slopeX w h d) x y))
    (Fmt.b64.rnd (tensor w h k (slopeX w h d) (slopeY w h d) x y))
    (Fmt.b64.rnd (tensor w h k (slopeY w h d) (slopeY w h d) x y))

def measQ (w h k : Nat) (d : List UInt8) (x y : Nat) : ℚ :=
  qF (Fmt.b64.rnd (tensor w h k (slopeX w h d) (slopeX w h d) x y))
    (Fmt.b64.rnd (tensor w h k (slopeX w h d) (slopeY w h d) x y))
    (Fmt.b64.rnd (tensor w h k (slopeY w h d) (slopeY w h d) x y))

theorem rep_of_bound {x : ℚ} (h0 : 0 ≤ max 0 (Fmt.b64.rnd x)) (hb : max 0 (Fmt.b64.rnd x) ≤ 2 ^ 120) :
    Fmt.b64.Rep (max 0 (Fmt.b64.rnd x)) := by
  refine ⟨?_, ?_⟩
  · rcases max_choice 0 (Fmt.b64.rnd x) with e | e <;> rw [e]
    · have := rnd_rep Fmt.b64 0
      rwa [rnd_zero] at this
    · exact rnd_rep _ _
  · rw [abs_of_nonneg h0]
    refine lt_of_le_of_lt hb ?_
    have : (2 : ℚ) ^ (120 : ℤ) < 2 ^ (Fmt.b64.emax + 1) := zpow_lt_zpow_right₀ (by norm_num) (by decide)
    exact_mod_cast this

theorem wF_rep {a c b : ℚ} (hb : wF a c b ≤ 2 ^ 120) : Fmt.b64.Rep (wF a c b) := by
  unfold wF at hb ⊢
  split_ifs at hb ⊢
  · exact rep_of_bound (le_max_left _ _) hb
  · simpa using rep64_int (z := 0) (by norm_num)

theorem qF_rep {a c b : ℚ} (hb : qF a c b ≤ 2 ^ 120) : Fmt.b64.Rep (qF a c b) := by
  unfold qF at hb ⊢
  split_ifs at hb ⊢
  · exact rep_of_bound (le_max_left _ _) hb
  · simpa using rep64_int (z := 0) (by norm_num)

theorem abs_mul_1020 {p q : ℤ} (hp : |p| ≤ 1020) (hq : |q| ≤ 1020) : |p * q| ≤ 1040400 := by
  rw [abs_mul]
  calc |p| * |q| ≤ 1020 * 1020 := mul_le_mul hp hq (abs_nonneg _) (by norm_num)
    _ = 1040400 := by norm_num

theorem rnd_tensor_abs {k : Nat} {p q : Nat → Nat → Int} (hp : ∀ x y, |p x y| ≤ 1020) (hq : ∀ x y, |q x y| ≤ 1020)
    (x y : Nat) : |Fmt.b64.rnd (tensor w h k p q x y)| ≤ 2 ^ 15 := by
  refine rnd_abs_le Fmt.b64 (tensor_abs (fun x y => abs_mul_1020 (hp x y) (hq x y)) x y) ?_
  have := rnd64_int (m := 2 ^ 15) (by norm_num)
  push_cast at this
  exact this

theorem meas_bounds (w h k : Nat) (d : List UInt8) (x y : Nat) :
    0 ≤ measW w h k d x y ∧ measW w h k d x y ≤ 2 ^ 120 ∧ Fmt.b64.Rep (measW w h k d x y) ∧
    0 ≤ measQ w h k d x y ∧ measQ w h k d x y ≤ 2 ^ 120 ∧ Fmt.b64.Rep (measQ w h k d x y) := by
  have sx := slopeX_abs w h d
  have sy := slopeY_abs w h d
  obtain ⟨-, h1, h2⟩ := foerMeasure_ok (rnd_tensor_abs (w := w) (h := h) (k := k) sx sx x y)
    (rnd_tensor_abs (w := w) (h := h) (k := k) sx sy x y) (rnd_tensor_abs (w := w) (h := h) (k := k) sy sy x y)
  have h1' := h1.trans (by norm_num : (2 : ℚ) ^ 80 ≤ 2 ^ 120)
  exact ⟨wF_nonneg _ _ _, h1', wF_rep h1', qF_nonneg _ _ _, h2, qF_rep h2⟩

/-- The byte of a pixel, given the maximum. -/
theorem byte_of_max {F : Nat → Nat → ℚ} {M : ℚ} (hF : ∀ x y, 0 ≤ F x y ∧ F x y ≤ 2 ^ 120 ∧ Fmt.b64.Rep (F x y))
    (hM : IsMax (w * h) (fun i => F (i % w) (i / w)) M) {x y : Nat} (hx : x < w) (hy : y < h) :
    F x y ≤ M ∧ foerByte M (F x y) = .ok (byteF M (F x y)) ∧
      (0 < M → 255 * (F x y / M) - 1 - 1 / 2 ^ 40 < ((byteF M (F x y)).toNat : ℚ) ∧
        ((byteF M (F x y)).toNat : ℚ) ≤ 255 * (F x y / M) + 1 / 2 ^ 40) := by
  obtain ⟨h1, h2, h3⟩ := hM
  have hle : F x y ≤ M := by
    have := h1 (y * w + x) (idx_lt hx hy)
    dsimp only [] at this
    have e1 : (y * w + x) % w = x := by rw [Nat.mul_comm, Nat.mul_add_mod, Nat.mod_eq_of_lt hx]
    have e2 : (y * w + x) / w = y := by
      rw [Nat.add_comm, Nat.add_mul_div_right _ _ (by omega), Nat.div_eq_of_lt hx, Nat.zero_add]
    rwa [e1, e2] at this
  have hMu : M ≤ 2 ^ 150 := by
    rcases h3 with rfl | ⟨i, -, e⟩
    · positivity
    · rw [← e]
      exact (hF _ _).2.1.trans (by norm_num)
  have hxy := hF x y
  have := foerByte_ok hxy.2.2 hxy.1 hle hMu
  exact ⟨hle, this.1, this.2⟩

theorem foerstner_yields (im : Img P w h 1 d) (hn : w * h < 2147483648) (h8 : w * h * 8 ≤ P.szMax)
    {σ : Dbl} {k : Nat} (hk : foerHalf σ = .ok k)
    (hfit : (k ≤ w ∧ k ≤ h) ∨ (k ≤ h ∧ h ≤ 2 * k) ∨ (k ≤ w ∧ w ≤ 2 * k)) :
    ∃ mw mq, IsMax (w * h) (fun i => measW w h k d (i % w) (i / w)) mw ∧
      IsMax (w * h) (fun i => measQ w h k d (i % w) (i / w)) mq ∧
      Yields (fcv_foerstner_corner P w h (some d) σ)
        (mkImg w h 2 fun x y c => if c = 0 then byteF mw (measW w h k d x y) else byteF mq (measQ w h k d x y)) := by
  have hw := im.w_pos
  have hh := im.h_pos
  have sx := slopeX_abs w h d
  have sy := slopeY_abs w h d
  have z : ¬ (w = 0 ∨ h = 0) := by omega
  have e32 : u32 (w * h) = w * h := u32_eq (by omega)
  have e2 : u32 (w * h * 2) = w * h * 2 := u32_eq (by omega)
  have esz : P.sz (w * h * 8) / 8 = w * h := by rw [P.sz_eq' h8]; omega
  have g8 : ¬ w * h * 8 > P.szMax := by omega
  have l1 := foerGrads_ok hw hh im.len (by omega)
  have l2 := foerProducts_ok (w := w) (h := h) sx sy (w * h) rfl
  have l3 := foerSmooth_ok (k := k) (p := slopeX w h d) (q := slopeY w h d)
    (fun x y => abs_mul_1020 (sx x y) (sx x y)) (fun x y => abs_mul_1020 (sx x y) (sy x y))
    (fun x y => abs_mul_1020 (sy x y) (sy x y)) hw hh hn hfit
  obtain ⟨s, l4, hs1, hs2, hs3, hs4⟩ := foerFirst_ok (w := w) (h := h) (rnd_tensor_abs (k := k) sx sx) (rnd_tensor_abs (k := k) sx sy)
    (rnd_tensor_abs (k := k) sy sy) (w * h) rfl
  have hmw : IsMax (w * h) (fun i => measW w h k d (i % w) (i / w)) s.max_w := hs3
  have hmq : IsMax (w * h) (fun i => measQ w h k d (i % w) (i / w)) s.max_q := hs4
  refine ⟨s.max_w, s.max_q, hmw, hmq, ?_⟩
  have fw : ∀ x y, 0 ≤ measW w h k d x y ∧ measW w h k d x y ≤ 2 ^ 120 ∧ Fmt.b64.Rep (measW w h k d x y) := fun x y =>
    ⟨(meas_bounds w h k d x y).1, (meas_bounds w h k d x y).2.1, (meas_bounds w h k d x y).2.2.1⟩
  have fq : ∀ x y, 0 ≤ measQ w h k d x y ∧ measQ w h k d x y ≤ 2 ^ 120 ∧ Fmt.b64.Rep (measQ w h k d x y) := fun x y =>
    ⟨(meas_bounds w h k d x y).2.2.2.1, (meas_bounds w h k d x y).2.2.2.2.1, (meas_bounds w h k d x y).2.2.2.2.2⟩
  have l5 := foerSecond_ok (w := w) (h := h) (W := measW w h k d) (Q := measQ w h k d) (s := s) hn
    (fun x y hx hy => (byte_of_max fw hmw hx hy).2.1) (fun x y hx hy => (byte_of_max fq hmq hx hy).2.1) hs1 hs2 (w * h) rfl
  intro hp
  have dc : ∀ {f : Option (Buf ℚ) → HM (Option (Buf UInt8))} {m : Nat} {J : List Nat} {Q},
      (hp.fails (hp.next + m) = true → HOk (f none) (duringCall hp (m + 1) J) Q) →
      HOk (f (some ⟨hp.next + m, List.replicate (w * h) (some 0)⟩)) (duringCall hp (m + 1) (m :: J)) Q →
      HOk (callocD P (w * h) >>= f) (duringCall hp m J) Q := by
    intro f m J Q a b
    unfold callocD
    rw [if_neg g8]
    exact during_calloc a b
  have dm : ∀ {f : Option (Buf ℚ) → HM (Option (Buf UInt8))} {m : Nat} {J : List Nat} {Q},
      (hp.fails (hp.next + m) = true → HOk (f none) (duringCall hp (m + 1) J) Q) →
      HOk (f (some ⟨hp.next + m, List.replicate (w * h) none⟩)) (duringCall hp (m + 1) (m :: J)) Q →
      HOk (mallocD P (w * h) >>= f) (duringCall hp m J) Q := by
    intro f m J Q a b
    unfold mallocD
    rw [esz]
    exact during_malloc a b
  refine returns_of_post ?_
  unfold fcv_foerstner_corner
  simp only [z, if_false, e32, e2]
  conv => arg 2; rw [duringCall_start hp]
  refine dc ?_ (dc ?_ ?_)
  · intro f0
    refine dc ?_ ?_
    · intro f1
      refine during_fail [none, none] ?_ (by decide : 0 < 2) f0; decide
    · refine during_fail [none, some 1] ?_ (by decide : 0 < 2) f0; decide
  · intro f1
    refine during_fail [some 0, none] ?_ (by decide : 1 < 2) f1; decide
  refine during_use (K := [0, 1]) l1 (by decide) ?_
  refine dm ?_ (dm ?_ (dm ?_ ?_))
  · intro f2
    refine dm ?_ ?_
    · intro f3
      refine dm ?_ ?_
      · intro f4
        refine during_fail [some 0, some 1, none, none, none] ?_ (by decide : 2 < 5) f2; decide
      · refine during_fail [some 0, some 1, none, none, some 4] ?_ (by decide : 2 < 5) f2; decide
    · refine dm ?_ ?_
      · intro f4
        refine during_fail [some 0, some 1, none, some 3, none] ?_ (by decide : 2 < 5) f2; decide
      · refine during_fail [some 0, some 1, none, some 3, some 4] ?_ (by decide : 2 < 5) f2; decide
  · intro f3
    refine dm ?_ ?_
    · intro f4
      refine during_fail [some 0, some 1, some 2, none, none] ?_ (by decide : 3 < 5) f3; decide
    · refine during_fail [some 0, some 1, some 2, none, some 4] ?_ (by decide : 3 < 5) f3; decide
  · intro f4
    refine during_fail [some 0, some 1, some 2, some 3, none] ?_ (by decide : 4 < 5) f4; decide
  refine during_use (K := [0, 1, 2, 3, 4]) l2 (by decide) ?_
  refine during_use (K := []) hk (by decide) ?_
  refine dc ?_ (dc ?_ (dc ?_ ?_))
  · intro f2
    refine dc ?_ ?_
    · intro f3
      refine dc ?_ ?_
      · intro f4
        refine during_fail [some 0, some 1, some 2, some 3, some 4, none, none, none] ?_ (by decide : 5 < 8) f2; decide
      · refine during_fail [some 0, some 1, some 2, some 3, some 4, none, none, some 7] ?_ (by decide : 5 < 8) f2; decide
    · refine dc ?_ ?_
      · intro f4
        refine during_fail [some 0, some 1, some 2, some 3, some 4, none, some 6, none] ?_ (by decide : 5 < 8) f2; decide
      · refine during_fail [some 0, some 1, some 2, some 3, some 4, none, some 6, some 7] ?_ (by decide : 5 < 8) f2; decide
  · intro f3
    refine dc ?_ ?_
    · intro f4
      refine during_fail [some 0, some 1, some 2, some 3, some 4, some 5, none, none] ?_ (by decide : 6 < 8) f3; decide
    · refine during_fail [some 0, some 1, some 2, some 3, some 4, some 5, none, some 7] ?_ (by decide : 6 < 8) f3; decide
  · intro f4
    refine during_fail [some 0, some 1, some 2, some 3, some 4, some 5, some 6, none] ?_ (by decide : 7 < 8) f4; decide
  refine during_use (K := [2, 3, 4, 5, 6, 7]) l3 (by decide) ?_
  refine during_malloc ?_ ?_
  · intro f8
    refine during_fail [some 0, some 1, some 2, some 3, some 4, some 5, some 6, some 7] ?_ (by decide : 8 < 9) f8; decide
  refine dm ?_ (dm ?_ ?_)
  · intro f0
    refine dm ?_ ?_
    · intro f1
      refine during_fail [some 8, none, none, some 0, some 1, some 2, some 3, some 4, some 5, some 6, some 7] ?_ (by decide : 9 < 11) f0; decide
    · refine during_fail [some 8, none, some 10, some 0, some 1, some 2, some 3, some 4, some 5, some 6, some 7] ?_ (by decide : 9 < 11) f0; decide
  · intro f1
    refine during_fail [some 8, some 9, none, some 0, some 1, some 2, some 3, some 4, some 5, some 6, some 7] ?_ (by decide : 10 < 11) f1; decide
  refine during_use (K := [5, 6, 7, 9, 10]) l4 (by decide) ?_
  refine during_use (K := [9, 10, 8]) l5 (by decide) ?_
  refine during_done [some 9, some 10, some 0, some 1, some 2, some 3, some 4, some 5, some 6, some 7] ?_ (by decide : 8 < 11) rfl; decide

end

end FlatCV
