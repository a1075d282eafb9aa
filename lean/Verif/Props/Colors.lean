/-
C69: counting distinct colours.
-/
import Verif.Model.Colors
import Verif.Spec.Colors
import Verif.Lemmas.Mem
import Verif.Lemmas.Hist
import Mathlib.Tactic.Ring

namespace FlatCV.Props
open FlatCV Model Spec

variable {d : List UInt8}

/-- The table index of a colour. -/
def colourKey (c : UInt8 × UInt8 × UInt8) : Nat := c.1.toNat * 65536 + c.2.1.toNat * 256 + c.2.2.toNat

theorem colourKey_lt (c : UInt8 × UInt8 × UInt8) : colourKey c < 16777216 := by
  have h1 := c.1.toNat_lt
  have h2 := c.2.1.toNat_lt
  have h3 := c.2.2.toNat_lt
  unfold colourKey
  omega

theorem colourKey_inj {a b : UInt8 × UInt8 × UInt8} (h : colourKey a = colourKey b) : a = b := by
  have a2 := a.2.1.toNat_lt
  have a3 := a.2.2.toNat_lt
  have b2 := b.2.1.toNat_lt
  have b3 := b.2.2.toNat_lt
  unfold colourKey at h
  refine Prod.ext (UInt8.toNat_inj.1 (by omega)) (Prod.ext (UInt8.toNat_inj.1 (by omega))
    (UInt8.toNat_inj.1 (by omega)))

theorem key_eq (r g b : UInt8) :
    ((r.toNat <<< 16 ||| g.toNat <<< 8) ||| b.toNat) = colourKey (r, g, b) := by
  have h2 := g.toNat_lt
  have h3 := b.toNat_lt
  unfold colourKey
  rw [← Nat.shiftLeft_add_eq_or_of_lt (i := 16) (by rw [Nat.shiftLeft_eq]; omega), Nat.shiftLeft_eq,
    Nat.shiftLeft_eq]
  have : r.toNat * 2 ^ 16 + g.toNat * 2 ^ 8 = (r.toNat * 2 ^ 8 + g.toNat) <<< 8 := by
    rw [Nat.shiftLeft_eq]; ring
  rw [this, ← Nat.shiftLeft_add_eq_or_of_lt (by omega), Nat.shiftLeft_eq]
  ring

/-- How often the colour with key `k` occurs among the first `n` pixels. -/
def keyCount (d : List UInt8) (n k : Nat) : Nat :=
  countP n fun i => px1 4 d i 3 ≠ 0 && colourKey (rgb d i) == k

theorem colours_succ (n : Nat) : colours (n + 1) d =
    if px1 4 d n 3 = 0 then colours n d else insert (rgb d n) (colours n d) := by
  unfold colours
  rw [Finset.range_add_one, Finset.filter_insert]
  by_cases h : px1 4 d n 3 = 0
  · simp [h]
  · rw [if_pos h, if_neg h, Finset.image_insert]

theorem mem_colours {n : Nat} {c : UInt8 × UInt8 × UInt8} :
    c ∈ colours n d ↔ 0 < keyCount d n (colourKey c) := by
  constructor
  · intro h
    unfold colours at h
    rw [Finset.mem_image] at h
    obtain ⟨i, hi, rfl⟩ := h
    rw [Finset.mem_filter, Finset.mem_range] at hi
    exact countP_pos hi.1 (by simp [hi.2])
  · intro h
    by_contra hc
    have : keyCount d n (colourKey c) = 0 := by
      apply countP_false
      intro i hi
      rw [Bool.and_eq_false_iff]
      by_cases ha : px1 4 d i 3 = 0
      · left; simp [ha]
      · right
        rw [beq_eq_false_iff_ne]
        intro he
        apply hc
        rw [← colourKey_inj he]
        unfold colours
        rw [Finset.mem_image]
        exact ⟨i, by rw [Finset.mem_filter, Finset.mem_range]; exact ⟨hi, ha⟩, rfl⟩
    omega

/-- The state of the loop after `k` pixels. -/
def CountInv (d : List UInt8) (k : Nat) (s : Cells Int × Int) : Prop :=
  s.1.length = 16777216 ∧ (∀ j, j < 16777216 → s.1[j]? = some (some (keyCount d k j : Int))) ∧
    s.2 = (colours k d).card

theorem countStep_ok {n k : Nat} (hd : d.length = n * 4) (hn : n < 2 ^ 29) (hk : k < n) {s : Cells Int × Int}
    (hs : CountInv d k s) : Ok (countStep d k s) (CountInv d (k + 1)) := by
  obtain ⟨hl, hc, hcard⟩ := hs
  have rdc : ∀ c, c < 4 → rdIn d (4 * k + c) = .ok (px1 4 d k c) := by
    intro c hc
    rw [Nat.mul_comm 4 k]
    exact rdIn_ok (getElem?_px1 hd hk hc)
  have r0 := rdc 0 (by omega)
  rw [Nat.add_zero] at r0
  unfold countStep
  rw [r0, ok_bind, rdc 1 (by omega), ok_bind, rdc 2 (by omega), ok_bind, rdc 3 (by omega), ok_bind]
  by_cases ha : px1 4 d k 3 = 0
  · rw [if_pos ha]
    refine Ok.pure' ⟨hl, fun j hj => ?_, ?_⟩
    · rw [hc j hj]
      unfold keyCount
      rw [countP_succ]
      simp [ha]
    · rw [hcard, colours_succ, if_pos ha]
  · rw [if_neg ha]
    simp only [key_eq]
    have hkey := colourKey_lt (px1 4 d k 0, px1 4 d k 1, px1 4 d k 2)
    have hck := hc _ hkey
    have hle := countP_le k fun i => px1 4 d i 3 ≠ 0 && colourKey (rgb d i) == colourKey (rgb d k)
    have hcn : keyCount d k (colourKey (rgb d k)) ≤ k := hle
    have hcardle : (colours k d).card ≤ k := by
      unfold colours
      refine Finset.card_image_le.trans ((Finset.card_filter_le _ _).trans ?_)
      rw [Finset.card_range]
    rw [rd_ok hck, ok_bind]
    have hcount : (if ((keyCount d k (colourKey (px1 4 d k 0, px1 4 d k 1, px1 4 d k 2)) : Nat) : Int) = 0
        then i32 (s.2 + 1) else pure s.2 : CM Int) = .ok ((colours (k + 1) d).card : Int) := by
      rw [colours_succ, if_neg ha]
      by_cases h0 : keyCount d k (colourKey (rgb d k)) = 0
      · have hnm : rgb d k ∉ colours k d := by rw [mem_colours]; omega
        rw [if_pos (by exact_mod_cast h0), Finset.card_insert_of_notMem hnm, hcard]
        rw [i32_ok (by unfold IsI32; omega)]
        push_cast
        rfl
      · have hm : rgb d k ∈ colours k d := by rw [mem_colours]; omega
        rw [if_neg (by exact_mod_cast h0), Finset.insert_eq_of_mem hm, hcard]
        rfl
    rw [hcount, ok_bind, i32_ok (by unfold IsI32; change keyCount d k (colourKey (_, _, _)) ≤ k at hcn; omega),
      ok_bind, wr_ok (by omega), ok_bind]
    refine Ok.pure' ⟨by simpa using hl, fun j hj => ?_, rfl⟩
    show (List.set s.1 (colourKey (rgb d k)) _)[j]? = _
    unfold keyCount
    rw [countP_succ]
    by_cases e : colourKey (rgb d k) = j
    · subst e
      rw [List.getElem?_set_self (by omega)]
      simp only [ha, beq_self_eq_true, Bool.and_true, decide_not, decide_false, Bool.not_false, if_true, ne_eq]
      push_cast
      rfl
    · rw [List.getElem?_set_ne e, hc j hj]
      simp [e, keyCount]

/-- C69: for every image whose byte count fits `int` the result is the number of distinct RGB values
among the pixels that are not fully transparent, or -1 when the table cannot be allocated; nothing
stays allocated. -/
theorem count_colors_correct {w h : Nat} (hw : 0 < w) (hh : 0 < h) (hd : d.length = w * h * 4)
    (hsz : w * h * 4 < 2 ^ 31) (hp : Heap) :
    HOk (count_colors w h (some d)) hp fun r h' =>
      h'.live = hp.live ∧ h'.fails = hp.fails ∧ hp.next ≤ h'.next ∧
        (if hp.fails hp.next then r = -1 else r = ((colours (w * h) d).card : Int)) := by
  have hi : ((w : Int) * h) = ((w * h : Nat) : Int) := by push_cast; rfl
  unfold count_colors
  simp only [show ¬ ((w : Int) ≤ 0 ∨ (h : Int) ≤ 0) by omega, if_false]
  have hcal : HOk (calloc 16777216 (0 : Int)) hp (fun b h' => (h'.fails = hp.fails ∧ hp.next ≤ h'.next) ∧ match b with
      | none => hp.fails hp.next = true ∧ h'.live = hp.live
      | some b => hp.fails hp.next = false ∧ b.cells = List.replicate 16777216 (some 0) ∧
          h'.live = b.id :: hp.live) := HOk.calloc (fun hf => ⟨⟨rfl, Nat.le_succ _⟩, hf, rfl⟩)
          (fun hf => ⟨⟨rfl, Nat.le_succ _⟩, hf, rfl, rfl⟩)
  refine HOk.bind hcal ?_
  rintro b h' ⟨⟨hfs, hnx⟩, hb⟩
  cases b with
  | none => exact HOk.pure ⟨hb.2, hfs, hnx, by rw [if_pos hb.1]⟩
  | some b =>
    obtain ⟨hf, hcells, hlive⟩ := hb
    refine HOk.bind (P := fun r h2 => r.2 = ((colours (w * h) d).card : Int) ∧ h' = h2)
      (HOk.use (by rw [hlive]; simp) ?_) ?_
    · rw [hi, i32_ok (by unfold IsI32; omega), ok_bind, i32_ok (by unfold IsI32; omega), ok_bind]
      rw [show (((w * h : Nat) : Int) * 4).toNat / 4 = w * h by omega]
      refine (forN_ok (fun k s => CountInv d k s) ?_ ?_).mono ?_
      · refine ⟨by rw [hcells]; exact List.length_replicate, fun j hj => ?_, rfl⟩
        rw [hcells, List.getElem?_replicate, if_pos hj]
        rfl
      · intro k hk s hs
        exact countStep_ok hd (by omega) hk hs
      · rintro s ⟨_, _, hc⟩
        exact ⟨hc, rfl⟩
    rintro r _ ⟨hr, rfl⟩
    refine HOk.bind (P := fun _ h2 => h2.live = hp.live ∧ h2.fails = hp.fails ∧ hp.next ≤ h2.next)
      (HOk.free (by rw [hlive]; simp) ⟨by simp [hlive], hfs, hnx⟩) ?_
    rintro _ h2 ⟨hl2, hf2, hn2⟩
    exact HOk.pure ⟨hl2, hf2, hn2, by rw [if_neg (by rw [hf]; simp)]; exact hr⟩

/-- Two opaque pixels of different colours and a transparent one. -/
example : (colours 3 [1, 2, 3, 255, 1, 2, 4, 255, 9, 9, 9, 0]).card = 2 ∧
    [1, 2, 3, 255, 1, 2, 4, 255, 9, 9, 9, (0 : UInt8)].length = 3 * 1 * 4 := by decide

/-- An image of `2^29` pixels makes the `int` product overflow, unless the table cannot be
allocated. -/
theorem count_colors_overflow (d : List UInt8) (hp : Heap) (hf : hp.fails hp.next = false) :
    count_colors 32768 16384 (some d) hp = .error (.comp .signedOverflow) := by
  have e1 : i32 536870912 = .ok 536870912 := by rw [i32_ok (by decide)]
  have e2 : i32 2147483648 = .error .signedOverflow := by rw [i32_err (by decide)]
  obtain ⟨c, hc⟩ : ∃ c, calloc 16777216 (0 : Int) hp = .ok (some ⟨hp.next, c⟩,
      { hp with next := hp.next + 1, live := hp.next :: hp.live }) :=
    ⟨List.replicate 16777216 (some 0), by unfold calloc; rw [hf]; rfl⟩
  simp [count_colors, hc, hm_bind, use, e1, e2, Except.map]

end FlatCV.Props
