/-
The tables that `zbuild_huffman` builds.
-/
import Verif.Model.Inflate
import Verif.Lemmas.InflateCanon
import Verif.Lemmas.Mem
import Verif.Lemmas.Trim

namespace FlatCV

open FlatCV.Model FlatCV.Png

/-- The arrays have the sizes of their declarations. -/
structure Shape (z : ZHuff) : Prop where
  fast : z.fast.length = 512
  firstcode : z.firstcode.length = 16
  maxcode : z.maxcode.length = 17
  firstsymbol : z.firstsymbol.length = 16
  size : z.size.length = 288
  value : z.value.length = 288

theorem Shape.fresh : Shape ZHuff.fresh := by
  constructor <;> exact List.length_replicate

/-- What the entry `j` of the fast table says. -/
def FastEntry (lens : List Nat) (n j f : Nat) : Prop :=
  (f = 0 ∧ ∀ i, i < n → lens.getD i 0 ≠ 0 → lens.getD i 0 ≤ 9 → rev j (lens.getD i 0) ≠ codeOf lens i) ∨
  ∃ i, i < n ∧ lens.getD i 0 ≠ 0 ∧ lens.getD i 0 ≤ 9 ∧ rev j (lens.getD i 0) = codeOf lens i ∧ f = lens.getD i 0 * 512 + i

/-- The position of a symbol in the lists of symbols. -/
def symPos (lens : List Nat) (i : Nat) : Nat := firstSym lens (lens.getD i 0) + (lens.take i).count (lens.getD i 0)

/-- The tables belong to the code with these lengths. -/
structure Tab (lens : List Nat) (h : ZHuff) : Prop where
  shape : Shape h
  length : lens.length ≤ 288
  le15 : ∀ i, lens.getD i 0 ≤ 15
  feasible : Feasible lens
  firstcode : ∀ s, 1 ≤ s → s ≤ 15 → h.firstcode[s]? = some (some (firstCode lens s))
  firstsymbol : ∀ s, 1 ≤ s → s ≤ 15 → h.firstsymbol[s]? = some (some (firstSym lens s))
  maxcode : ∀ s, 1 ≤ s → s ≤ 15 → h.maxcode[s]? = some (some (codeEnd lens s))
  maxcode16 : h.maxcode[16]? = some (some 65536)
  size : ∀ i, i < lens.length → lens.getD i 0 ≠ 0 → h.size[symPos lens i]? = some (some (lens.getD i 0))
  value : ∀ i, i < lens.length → lens.getD i 0 ≠ 0 → h.value[symPos lens i]? = some (some i)
  fast : ∀ j, j < 512 → ∃ f, h.fast[j]? = some (some f) ∧ FastEntry lens lens.length j f

theorem get_set {α : Type} {l : List α} {i j : Nat} {v : α} (h : i < l.length) :
    (l.set i v)[j]? = if i = j then some v else l[j]? := by
  rw [List.getElem?_set]
  by_cases hij : i = j
  · rw [if_pos hij, if_pos hij, if_pos h]
  · rw [if_neg hij, if_neg hij]

theorem get_set_self {α : Type} {l : List α} {i : Nat} {v : α} (h : i < l.length) : (l.set i v)[i]? = some v := by
  rw [get_set h, if_pos rfl]

theorem get_set_ne {α : Type} {l : List α} {i j : Nat} {v : α} (h : i ≠ j) : (l.set i v)[j]? = l[j]? :=
  List.getElem?_set_ne h

/-- The lengths are in the cells. -/
def Holds (cells : Cells Nat) (lens : List Nat) : Prop := ∀ i, i < lens.length → cells[i]? = some (some (lens.getD i 0))

theorem Holds.map (lens : List Nat) : Holds (lens.map some) lens := by
  intro i hi
  rw [List.getElem?_map, List.getElem?_eq_getElem hi, getD_of_lt lens hi]
  rfl

theorem countSizes_ok {cells : Cells Nat} {lens : List Nat} (h : Holds cells lens) (h15 : ∀ i, lens.getD i 0 ≤ 15) :
    countSizes cells lens.length = .ok ((List.range 17).map (lenCount lens)) := by
  have key : Ok (forN lens.length (List.replicate 17 0) fun i sizes => do
      let s ← rd cells i
      let c ← rdIn sizes s
      wrIn sizes s (c + 1)) (fun r => r = (List.range 17).map fun s => (lens.take lens.length).count s) := by
    refine forN_ok (fun i r => r = (List.range 17).map fun s => (lens.take i).count s) ?_ ?_
    · simp [List.replicate]
    · rintro i hi _ rfl
      have hs := h15 i
      rw [rd_ok (h i hi), ok_bind, rdIn_ok (v := (lens.take i).count (lens.getD i 0)) (by
        rw [List.getElem?_map, List.getElem?_range (by omega)]; rfl), ok_bind, wrIn, if_pos (by rw [List.length_map, List.length_range]; omega)]
      refine Ok.pure ?_
      apply List.ext_getElem?
      intro s
      rw [get_set (by rw [List.length_map, List.length_range]; omega)]
      by_cases h1 : s < 17
      · rw [List.getElem?_map, List.getElem?_map, List.getElem?_range h1, Option.map_some, Option.map_some, take_count_succ lens hi]
        by_cases h2 : lens.getD i 0 = s
        · rw [if_pos h2, if_pos h2, h2]
        · rw [if_neg h2, if_neg h2, Nat.add_zero]
      · rw [if_neg (by omega), List.getElem?_eq_none (by simp; omega), List.getElem?_eq_none (by simp; omega)]
  rw [countSizes, key.eq, ok_bind, wrIn, if_pos (by simp), List.take_length]
  rfl

theorem sizes_get (lens : List Nat) {s : Nat} (h : s < 17) :
    rdIn ((List.range 17).map (lenCount lens)) s = .ok (lenCount lens s) :=
  rdIn_ok (by rw [List.getElem?_map, List.getElem?_range h]; rfl)

theorem sizesOk_ok (lens : List Nat) :
    Ok (sizesOk ((List.range 17).map (lenCount lens))) (fun r => r = false → ¬ Feasible lens) := by
  refine forN_ok (fun _ r => r = false → ¬ Feasible lens) (by simp) ?_
  intro i hi r hr
  rw [sizes_get lens (by omega), ok_bind]
  refine Ok.pure' ?_
  intro hb hf
  cases r with
  | false => exact hr rfl hf
  | true =>
    rw [Bool.true_and, decide_eq_false_iff_not] at hb
    have := hf.le (i + 1) (by omega)
    omega

/-! ### First codes -/

def FeasBelow (lens : List Nat) (n : Nat) : Prop :=
  ∀ s, 1 ≤ s → s < n → lenCount lens s ≠ 0 → firstCode lens s + lenCount lens s ≤ 2 ^ s

theorem FeasBelow.le {lens : List Nat} {n : Nat} (h : FeasBelow lens n) : ∀ s, s < n → firstCode lens s + lenCount lens s ≤ 2 ^ s
  | 0, _ => by simp [firstCode, lenCount]
  | s + 1, hs => by
    by_cases hc : lenCount lens (s + 1) = 0
    · have := h.le s (by omega)
      rw [hc, firstCode, pow_succ]
      omega
    · exact h (s + 1) (by omega) hs hc

theorem FeasBelow.first {lens : List Nat} {n : Nat} (h : FeasBelow lens n) : firstCode lens n ≤ 2 ^ n := by
  cases n with
  | zero => simp [firstCode]
  | succ n =>
    have := h.le n (by omega)
    rw [firstCode, pow_succ]
    omega

structure CodeInv (lens : List Nat) (fast0 : Cells Nat) (i : Nat) (t : CodeState) : Prop where
  ok : t.ok = true
  code : t.code = firstCode lens i
  k : t.k = firstSym lens i
  nextLen : t.next.length = 16
  shape : Shape t.z
  fast : t.z.fast = fast0
  feas : FeasBelow lens i
  next : ∀ s, 1 ≤ s → s < i → t.next[s]? = some (some (firstCode lens s))
  firstcode : ∀ s, 1 ≤ s → s < i → t.z.firstcode[s]? = some (some (firstCode lens s))
  firstsymbol : ∀ s, 1 ≤ s → s < i → t.z.firstsymbol[s]? = some (some (firstSym lens s))
  maxcode : ∀ s, 1 ≤ s → s < i → t.z.maxcode[s]? = some (some (codeEnd lens s))

theorem upto_set {l : Cells Nat} {f : Nat → Nat} {i : Nat} (hi : i < l.length)
    (h : ∀ s, 1 ≤ s → s < i → l[s]? = some (some (f s))) {v : Nat} (hv : v = f i) :
    ∀ s, 1 ≤ s → s < i + 1 → (l.set i (some v))[s]? = some (some (f s)) := by
  intro s h1 h2
  rw [get_set hi]
  by_cases h3 : i = s
  · rw [if_pos h3, hv, h3]
  · rw [if_neg h3, h s h1 (by omega)]

theorem codeStep_ok {lens : List Nat} {fast0 : Cells Nat} {i : Nat} {t : CodeState} (hl : lens.length ≤ 288) (h1 : 1 ≤ i) (h2 : i ≤ 15)
    (h : CodeInv lens fast0 i t) :
    Ok (codeStep ((List.range 17).map (lenCount lens)) i t)
      (fun r => if r.2 then r.1.ok = false ∧ ¬ Feasible lens else CodeInv lens fast0 (i + 1) r.1) := by
  have hF := h.feas.first
  have hp : (2 : Nat) ^ i ≤ 2 ^ 15 := Nat.pow_le_pow_right (by norm_num) h2
  have hS := firstSym_le lens i
  have hsh := h.shape
  rw [codeStep, wr_ok (by rw [h.nextLen]; omega), ok_bind, wr_ok (by rw [hsh.firstcode]; omega), ok_bind,
    wr_ok (by rw [hsh.firstsymbol]; omega), ok_bind, sizes_get lens (by omega), ok_bind, h.code, h.k]
  by_cases hc : lenCount lens i ≠ 0 ∧ 2 ^ i < firstCode lens i + lenCount lens i
  · rw [if_pos hc]
    refine Ok.pure' ?_
    rw [if_pos rfl]
    exact ⟨rfl, fun hf => by have := hf i (by omega) hc.1; omega⟩
  · rw [if_neg hc]
    have hle : firstCode lens i + lenCount lens i ≤ 2 ^ i := by
      by_cases h0 : lenCount lens i = 0
      · omega
      · by_contra h3
        exact hc ⟨h0, by omega⟩
    have he : (firstCode lens i + lenCount lens i) * 2 ^ (16 - i) ≤ 65536 := by
      have h1 := Nat.mul_le_mul_right (2 ^ (16 - i)) hle
      rw [← pow_add, show i + (16 - i) = 16 by omega] at h1
      exact h1
    rw [i32_ok (by unfold IsI32; omega), ok_bind, wr_ok (by rw [hsh.maxcode]; omega), ok_bind]
    refine Ok.pure' ?_
    rw [if_neg (by simp)]
    constructor
    · rfl
    · show (firstCode lens i + lenCount lens i) * 2 = firstCode lens (i + 1)
      rw [firstCode]; ring
    · rfl
    · show (t.next.set i _).length = 16
      rw [List.length_set, h.nextLen]
    · constructor <;> simp only [List.length_set]
      · exact hsh.fast
      · exact hsh.firstcode
      · exact hsh.maxcode
      · exact hsh.firstsymbol
      · exact hsh.size
      · exact hsh.value
    · exact h.fast
    · intro s hs1 hs2 hs3
      by_cases h3 : s = i
      · rw [h3]; exact hle
      · exact h.feas s hs1 (by omega) hs3
    · exact upto_set (by rw [h.nextLen]; omega) h.next rfl
    · exact upto_set (by rw [hsh.firstcode]; omega) h.firstcode (Nat.mod_eq_of_lt (by omega))
    · exact upto_set (by rw [hsh.firstsymbol]; omega) h.firstsymbol (Nat.mod_eq_of_lt (by omega))
    · refine upto_set (by rw [hsh.maxcode]; omega) h.maxcode ?_
      rw [Int.toNat_natCast, codeEnd]

theorem codes_ok {lens : List Nat} {z : ZHuff} (hl : lens.length ≤ 288) (hz : Shape z) :
    Ok (forBreak 15 1 ⟨0, 0, List.replicate 16 none, z, true⟩ (codeStep ((List.range 17).map (lenCount lens))))
      (fun t => (t.ok = false ∧ ¬ Feasible lens) ∨ CodeInv lens z.fast 16 t) := by
  refine forBreak_ok (CodeInv lens z.fast) (fun t => t.ok = false ∧ ¬ Feasible lens) ?_ ?_
  · constructor
    · rfl
    · simp [firstCode, lenCount]
    · simp [firstSym, lenCount]
    · exact List.length_replicate
    · exact hz
    · rfl
    · intro s; omega
    · intro s; omega
    · intro s; omega
    · intro s; omega
    · intro s; omega
  · intro j h1 h2 t ht
    exact codeStep_ok hl h1 (by omega) ht

/-! ### Symbols -/

theorem rev_eq_iff {j c s : Nat} (hc : c < 2 ^ s) : rev j s = c ↔ j % 2 ^ s = rev c s := by
  constructor
  · intro h
    have h1 : rev (rev (j % 2 ^ s) s) s = j % 2 ^ s := rev_rev (Nat.mod_lt _ (by positivity))
    rw [rev_mod j le_rfl, h] at h1
    exact h1.symm
  · intro h
    rw [← rev_mod j (le_refl s), h, rev_rev hc]

theorem fillFast_ok {fast : Cells Nat} {j s v : Nat} (hf : fast.length = 512) (hj : j < 2 ^ s) (hs : s ≤ 9) :
    Ok (fillFast fast j s v) (fun r => r.length = 512 ∧
      ∀ k, k < 512 → r[k]? = if k % 2 ^ s = j then some (some v) else fast[k]?) := by
  have hp : 0 < 2 ^ s := by positivity
  have hp9 : (2 : Nat) ^ s ≤ 2 ^ 9 := Nat.pow_le_pow_right (by norm_num) hs
  have key := whileFuel_ok (fuel := 513) (s := (fast, j)) (step := fun t : Cells Nat × Nat =>
      if t.2 < 512 then do
        let fast ← wr t.1 t.2 v
        Pure.pure ((fast, t.2 + 2 ^ s), false)
      else (Pure.pure (t, true) : CM _))
    (fun t => t.1.length = 512 ∧ t.2 % 2 ^ s = j ∧ ∀ k, k < 512 → t.1[k]? = if k % 2 ^ s = j ∧ k < t.2 then some (some v) else fast[k]?)
    (fun t => 512 - t.2)
    (fun t => t.1.length = 512 ∧ ∀ k, k < 512 → t.1[k]? = if k % 2 ^ s = j then some (some v) else fast[k]?)
    ?_ ?_ ?_
  · rw [fillFast]
    refine Ok.bind key ?_
    rintro r ⟨h1, h2⟩
    exact Ok.pure' ⟨h1, h2⟩
  · refine ⟨hf, Nat.mod_eq_of_lt hj, fun k hk => ?_⟩
    rw [if_neg]
    rintro ⟨h1, h2⟩
    have := Nat.mod_eq_of_lt (show k < 2 ^ s by simp only at h2; omega)
    simp only at h2
    omega
  · show 512 - j < 513
    omega
  · rintro ⟨l, p⟩ ⟨h1, h2, h3⟩
    simp only at h1 h2 h3 ⊢
    by_cases hpl : p < 512
    · rw [if_pos hpl, wr_ok (by omega), ok_bind]
      refine Ok.pure' ?_
      simp only [Bool.false_eq_true, if_false]
      refine ⟨⟨by rw [List.length_set, h1], by rw [Nat.add_mod_right, h2], fun k hk => ?_⟩, by omega⟩
      rw [get_set (by omega)]
      by_cases hkp : p = k
      · rw [if_pos hkp, if_pos ⟨by rw [← hkp, h2], by omega⟩]
      · rw [if_neg hkp, h3 k hk]
        by_cases hm : k % 2 ^ s = j
        · by_cases hlt : k < p
          · rw [if_pos ⟨hm, hlt⟩, if_pos ⟨hm, by omega⟩]
          · rw [if_neg (fun h => hlt h.2), if_neg]
            rintro ⟨_, h5⟩
            have h6 : (k - p) % 2 ^ s = 0 := Nat.sub_mod_eq_zero_of_mod_eq (by rw [hm, h2])
            rw [Nat.mod_eq_of_lt (by omega)] at h6
            omega
        · rw [if_neg (fun h => hm h.1), if_neg (fun h => hm h.1)]
    · rw [if_neg hpl]
      refine Ok.pure' ?_
      simp only [if_true]
      refine ⟨h1, fun k hk => ?_⟩
      rw [h3 k hk]
      by_cases hm : k % 2 ^ s = j
      · rw [if_pos ⟨hm, by omega⟩, if_pos hm]
      · rw [if_neg (fun h => hm h.1), if_neg hm]

structure SymInv (lens : List Nat) (z0 : ZHuff) (n : Nat) (t : Cells Nat × ZHuff) : Prop where
  nextLen : t.1.length = 16
  next : ∀ s, 1 ≤ s → s ≤ 15 → t.1[s]? = some (some (firstCode lens s + (lens.take n).count s))
  shape : Shape t.2
  firstcode : t.2.firstcode = z0.firstcode
  firstsymbol : t.2.firstsymbol = z0.firstsymbol
  maxcode : t.2.maxcode = z0.maxcode
  size : ∀ i, i < n → lens.getD i 0 ≠ 0 → t.2.size[symPos lens i]? = some (some (lens.getD i 0))
  value : ∀ i, i < n → lens.getD i 0 ≠ 0 → t.2.value[symPos lens i]? = some (some i)
  fast : ∀ j, j < 512 → ∃ f, t.2.fast[j]? = some (some f) ∧ FastEntry lens n j f

theorem symPos_lt (lens : List Nat) {i : Nat} (hi : i < lens.length) (h0 : lens.getD i 0 ≠ 0) :
    symPos lens i < firstSym lens (lens.getD i 0 + 1) := by
  have := rank_lt lens hi
  rw [symPos, firstSym, lenCount_pos lens h0]
  omega

theorem symPos_ne (lens : List Nat) {i j : Nat} (hi : i < lens.length) (hj : j < lens.length) (hij : i ≠ j) (h0 : lens.getD i 0 ≠ 0)
    (h1 : lens.getD j 0 ≠ 0) : symPos lens i ≠ symPos lens j := by
  intro h
  have hi1 := symPos_lt lens hi h0
  have hj1 := symPos_lt lens hj h1
  rcases Nat.lt_trichotomy (lens.getD i 0) (lens.getD j 0) with hl | hl | hl
  · have := firstSym_mono lens (show lens.getD i 0 + 1 ≤ lens.getD j 0 by omega)
    rw [h, symPos] at hi1
    omega
  · refine hij (rank_inj lens hi hj hl ?_)
    rw [symPos, symPos, hl] at h
    rw [hl]
    omega
  · have := firstSym_mono lens (show lens.getD j 0 + 1 ≤ lens.getD i 0 by omega)
    rw [← h, symPos] at hj1
    omega

/-- One more symbol in the fast table. -/
theorem FastEntry.skip {lens : List Nat} {n j f : Nat} (h : FastEntry lens n j f)
    (hn : lens.getD n 0 = 0 ∨ 9 < lens.getD n 0 ∨ rev j (lens.getD n 0) ≠ codeOf lens n) : FastEntry lens (n + 1) j f := by
  rcases h with ⟨h1, h2⟩ | ⟨i, h1, h2⟩
  · refine Or.inl ⟨h1, fun i hi h3 h4 => ?_⟩
    by_cases hin : i = n
    · subst hin
      rcases hn with hn | hn | hn
      · exact absurd hn h3
      · omega
      · exact hn
    · exact h2 i (by omega) h3 h4
  · exact Or.inr ⟨i, by omega, h2⟩

theorem symbolStep_ok {cells : Cells Nat} {lens : List Nat} {z0 : ZHuff} {n : Nat} {t : Cells Nat × ZHuff} (hc : Holds cells lens)
    (hl : lens.length ≤ 288) (h15 : ∀ i, lens.getD i 0 ≤ 15) (hf : Feasible lens)
    (hfc : ∀ s, 1 ≤ s → s ≤ 15 → z0.firstcode[s]? = some (some (firstCode lens s)))
    (hfs : ∀ s, 1 ≤ s → s ≤ 15 → z0.firstsymbol[s]? = some (some (firstSym lens s)))
    (hn : n < lens.length) (h : SymInv lens z0 n t) : Ok (symbolStep cells n t) (SymInv lens z0 (n + 1)) := by
  obtain ⟨next, z⟩ := t
  rw [symbolStep, rd_ok (hc n hn), ok_bind]
  by_cases h0 : lens.getD n 0 = 0
  · rw [if_pos h0]
    refine Ok.pure' ?_
    constructor
    · exact h.nextLen
    · intro s hs1 hs2
      rw [h.next s hs1 hs2, take_count_succ lens hn, if_neg (by omega), Nat.add_zero]
    · exact h.shape
    · exact h.firstcode
    · exact h.firstsymbol
    · exact h.maxcode
    · intro i hi hi0
      exact h.size i (by rcases Nat.lt_succ_iff_lt_or_eq.1 hi with h1 | h1; exacts [h1, absurd (h1 ▸ h0) hi0]) hi0
    · intro i hi hi0
      exact h.value i (by rcases Nat.lt_succ_iff_lt_or_eq.1 hi with h1 | h1; exacts [h1, absurd (h1 ▸ h0) hi0]) hi0
    · intro j hj
      obtain ⟨f, h1, h2⟩ := h.fast j hj
      exact ⟨f, h1, h2.skip (Or.inl h0)⟩
  · rw [if_neg h0]
    obtain ⟨s, hs⟩ : ∃ s, s = lens.getD n 0 := ⟨_, rfl⟩
    have hs15 := h15 n
    have hsh := h.shape
    have hpos := symPos_lt lens hn h0
    have hpl := firstSym_le lens (lens.getD n 0 + 1)
    have hco : firstCode lens (lens.getD n 0) + (lens.take n).count (lens.getD n 0) = codeOf lens n := rfl
    rw [rd_ok (h.next _ (by omega) hs15), ok_bind, h.firstcode, rd_ok (hfc _ (by omega) hs15), ok_bind, h.firstsymbol,
      rd_ok (hfs _ (by omega) hs15), ok_bind]
    have hcz : ((firstCode lens (lens.getD n 0) + (lens.take n).count (lens.getD n 0) : Nat) : Int) - (firstCode lens (lens.getD n 0) : Nat) +
        (firstSym lens (lens.getD n 0) : Nat) = (symPos lens n : Nat) := by
      rw [symPos]; push_cast; ring
    simp only [hcz]
    rw [if_neg (by omega), Int.toNat_natCast, wr_ok (by rw [hsh.size]; omega), ok_bind, wr_ok (by rw [hsh.value]; omega), ok_bind,
      Nat.mod_eq_of_lt (show lens.getD n 0 < 256 by omega), Nat.mod_eq_of_lt (show n < 65536 by omega)]
    have hor : (lens.getD n 0 * 512 ||| n) % 65536 = lens.getD n 0 * 512 + n := by
      have : lens.getD n 0 <<< 9 + n = lens.getD n 0 <<< 9 ||| n := Nat.shiftLeft_add_eq_or_of_lt (by omega) _
      rw [Nat.shiftLeft_eq] at this
      rw [show (2 : Nat) ^ 9 = 512 from rfl] at this
      rw [← this]
      omega
    have hcl := codeOf_lt lens hn h0
    have hcl2 := hf.le _ hs15
    have hfast : Ok (fastEntries z.fast (firstCode lens (lens.getD n 0) + (lens.take n).count (lens.getD n 0)) (lens.getD n 0)
        ((lens.getD n 0 * 512 ||| n) % 65536)) (fun r => r.length = 512 ∧ ∀ j, j < 512 → ∃ f, r[j]? = some (some f) ∧ FastEntry lens (n + 1) j f) := by
      rw [fastEntries]
      by_cases h9 : lens.getD n 0 ≤ 9
      · rw [if_pos h9, bit_reverse_ok (by omega), ok_bind, hor, hco]
        refine (fillFast_ok hsh.fast (rev_lt _ _) h9).mono ?_
        rintro r ⟨h1, h2⟩
        refine ⟨h1, fun j hj => ?_⟩
        rw [h2 j hj]
        by_cases hjr : j % 2 ^ lens.getD n 0 = rev (codeOf lens n) (lens.getD n 0)
        · rw [if_pos hjr]
          exact ⟨_, rfl, Or.inr ⟨n, by omega, h0, h9, (rev_eq_iff (by omega)).2 hjr, rfl⟩⟩
        · rw [if_neg hjr]
          obtain ⟨f, h3, h4⟩ := h.fast j hj
          exact ⟨f, h3, h4.skip (Or.inr (Or.inr fun h5 => hjr ((rev_eq_iff (by omega)).1 h5)))⟩
      · rw [if_neg h9]
        refine Ok.pure' ⟨hsh.fast, fun j hj => ?_⟩
        obtain ⟨f, h3, h4⟩ := h.fast j hj
        exact ⟨f, h3, h4.skip (Or.inr (Or.inl (by omega)))⟩
    refine Ok.bind hfast ?_
    rintro fast ⟨hfl, hfe⟩
    rw [wr_ok (by have := h.nextLen; simp only at this ⊢; omega), ok_bind]
    refine Ok.pure' ?_
    have hnl := h.nextLen
    simp only at hnl
    constructor
    · show (next.set _ _).length = 16
      rw [List.length_set, hnl]
    · intro s hs1 hs2
      show (next.set _ _)[s]? = _
      rw [get_set (by omega), take_count_succ lens hn]
      by_cases h3 : lens.getD n 0 = s
      · rw [if_pos h3, if_pos h3, h3, Nat.add_assoc]
      · rw [if_neg h3, if_neg h3, Nat.add_zero]
        exact h.next s hs1 hs2
    · constructor <;> simp only [List.length_set]
      · exact hfl
      · exact hsh.firstcode
      · exact hsh.maxcode
      · exact hsh.firstsymbol
      · exact hsh.size
      · exact hsh.value
    · exact h.firstcode
    · exact h.firstsymbol
    · exact h.maxcode
    · intro i hi hi0
      show (z.size.set _ _)[symPos lens i]? = _
      by_cases h3 : i = n
      · subst h3
        rw [get_set_self (by have := hsh.size; simp only at this; omega)]
      · rw [get_set_ne (symPos_ne lens hn (by omega) (Ne.symm h3) h0 hi0)]
        exact h.size i (by omega) hi0
    · intro i hi hi0
      show (z.value.set _ _)[symPos lens i]? = _
      by_cases h3 : i = n
      · subst h3
        rw [get_set_self (by have := hsh.value; simp only at this; omega)]
      · rw [get_set_ne (symPos_ne lens hn (by omega) (Ne.symm h3) h0 hi0)]
        exact h.value i (by omega) hi0
    · exact hfe

/-- `zbuild_huffman` builds the tables of the code with the given lengths, or finds that there is no such code. -/
theorem zbuild_ok {z : ZHuff} {cells : Cells Nat} {lens : List Nat} {num : Nat} (hz : Shape z) (hc : Holds cells lens)
    (hnum : num = lens.length) (hl : lens.length ≤ 288) (h15 : ∀ i, lens.getD i 0 ≤ 15) :
    Ok (zbuild_huffman z cells num) (fun r => match r with | none => ¬ Feasible lens | some h => Tab lens h) := by
  subst hnum
  have hm : memset z.fast 512 0 = .ok (List.replicate 512 (some 0)) := by
    have := memset_all z.fast 0
    rwa [hz.fast] at this
  rw [zbuild_huffman, hm, ok_bind, countSizes_ok hc h15, ok_bind]
  refine Ok.bind (sizesOk_ok lens) ?_
  intro good hgood
  cases good with
  | false => exact Ok.pure' (hgood rfl)
  | true =>
    rw [if_pos rfl]
    refine Ok.bind (codes_ok hl (z := { z with fast := List.replicate 512 (some 0) })
      ⟨List.length_replicate, hz.firstcode, hz.maxcode, hz.firstsymbol, hz.size, hz.value⟩) ?_
    rintro t (⟨h1, h2⟩ | h)
    · rw [h1, if_neg (by simp)]
      exact Ok.pure' h2
    · rw [h.ok, if_pos rfl, wr_ok (by rw [h.shape.maxcode]; omega), ok_bind]
      have hf : Feasible lens := fun s h1 h3 => h.feas s (by
        rcases Nat.eq_zero_or_pos s with h0 | h0
        · exact absurd (by rw [h0]; rfl) h3
        · exact h0) (by omega) h3
      have key := forN_ok (n := lens.length) (s := (t.next, { t.z with maxcode := t.z.maxcode.set 16 (some 65536) }))
        (body := symbolStep cells) (SymInv lens { t.z with maxcode := t.z.maxcode.set 16 (some 65536) }) ?_ ?_
      · refine Ok.bind key ?_
        rintro ⟨next, r⟩ hr
        refine Ok.pure' ?_
        show Tab lens r
        have hmax : r.maxcode = t.z.maxcode.set 16 (some 65536) := hr.maxcode
        have hfc : r.firstcode = t.z.firstcode := hr.firstcode
        have hfs : r.firstsymbol = t.z.firstsymbol := hr.firstsymbol
        refine ⟨hr.shape, hl, h15, hf, ?_, ?_, ?_, ?_, hr.size, hr.value, hr.fast⟩
        · intro s h1 h2
          rw [hfc]
          exact h.firstcode s h1 (by omega)
        · intro s h1 h2
          rw [hfs]
          exact h.firstsymbol s h1 (by omega)
        · intro s h1 h2
          rw [hmax, get_set_ne (by omega)]
          exact h.maxcode s h1 (by omega)
        · rw [hmax, get_set_self (by rw [h.shape.maxcode]; omega)]
      · refine ⟨h.nextLen, ?_, ⟨h.shape.fast, h.shape.firstcode, by simp only [List.length_set]; exact h.shape.maxcode, h.shape.firstsymbol, h.shape.size, h.shape.value⟩, rfl, rfl, rfl, ?_, ?_, ?_⟩
        · intro s h1 h2
          rw [List.take_zero, List.count_nil, Nat.add_zero]
          exact h.next s h1 (by omega)
        · intro i hi; omega
        · intro i hi; omega
        · intro j hj
          refine ⟨0, ?_, Or.inl ⟨rfl, fun i hi => by omega⟩⟩
          have := h.fast
          simp only at this ⊢
          rw [this, List.getElem?_replicate, if_pos hj]
      · intro i hi s hs
        exact symbolStep_ok hc hl h15 hf (fun s h1 h2 => h.firstcode s h1 (by omega)) (fun s h1 h2 => h.firstsymbol s h1 (by omega)) hi hs

end FlatCV
