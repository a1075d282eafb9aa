/-
The inverse cosine transform of the JPEG decoder: what it computes in integers, and that it does not overflow.
-/
import Verif.Model.JpegKernel
import Verif.Lemmas.Mem

namespace FlatCV
open Model

/-- All eight values lie between `-B` and `B`. -/
def OctB (s : Oct Int) (B : Int) : Prop :=
  (-B ≤ s.d0 ∧ s.d0 ≤ B) ∧ (-B ≤ s.d1 ∧ s.d1 ≤ B) ∧ (-B ≤ s.d2 ∧ s.d2 ≤ B) ∧ (-B ≤ s.d3 ∧ s.d3 ≤ B) ∧
  (-B ≤ s.d4 ∧ s.d4 ≤ B) ∧ (-B ≤ s.d5 ∧ s.d5 ≤ B) ∧ (-B ≤ s.d6 ∧ s.d6 ≤ B) ∧ (-B ≤ s.d7 ∧ s.d7 ≤ B)

/-- The even part of the one-dimensional transform. -/
def evenP (s : Oct Int) : Nat → Int
  | 0 => 4096 * s.d0 + 4096 * s.d4 + 5352 * s.d2 + 2217 * s.d6
  | 1 => 4096 * s.d0 - 4096 * s.d4 + 2217 * s.d2 - 5350 * s.d6
  | 2 => 4096 * s.d0 - 4096 * s.d4 - 2217 * s.d2 + 5350 * s.d6
  | _ => 4096 * s.d0 + 4096 * s.d4 - 5352 * s.d2 - 2217 * s.d6

/-- The odd part of the one-dimensional transform. -/
def oddP (s : Oct Int) : Nat → Int
  | 0 => 5683 * s.d1 + 4816 * s.d3 + 3219 * s.d5 + 1131 * s.d7
  | 1 => 4816 * s.d1 - 1129 * s.d3 - 5681 * s.d5 - 3218 * s.d7
  | 2 => 3219 * s.d1 - 5681 * s.d3 + 1132 * s.d5 + 4816 * s.d7
  | _ => 1131 * s.d1 - 3218 * s.d3 + 4816 * s.d5 - 5680 * s.d7

theorem idct1D_ok {s : Oct Int} (h : OctB s 69000) :
    idct1D s = .ok ⟨evenP s 0, evenP s 1, evenP s 2, evenP s 3, oddP s 3, oddP s 2, oddP s 1, oddP s 0⟩ := by
  obtain ⟨s0, s1, s2, s3, s4, s5, s6, s7⟩ := s
  simp only [OctB] at h
  obtain ⟨⟨h0, h0'⟩, ⟨h1, h1'⟩, ⟨h2, h2'⟩, ⟨h3, h3'⟩, ⟨h4, h4'⟩, ⟨h5, h5'⟩, ⟨h6, h6'⟩, ⟨h7, h7'⟩⟩ := h
  simp only [idct1D]
  iterate 38 rw [i32_ok (by unfold IsI32; omega), ok_bind]
  simp only [evenP, oddP]
  refine congrArg Except.ok ?_
  congr 1 <;> ring

/-- The eight results of the one-dimensional transform, 4096 times too large. -/
def xf (s : Oct Int) : Nat → Int
  | 0 => evenP s 0 + oddP s 0
  | 1 => evenP s 1 + oddP s 1
  | 2 => evenP s 2 + oddP s 2
  | 3 => evenP s 3 + oddP s 3
  | 4 => evenP s 3 - oddP s 3
  | 5 => evenP s 2 - oddP s 2
  | 6 => evenP s 1 - oddP s 1
  | _ => evenP s 0 - oddP s 0

/-- Element `k` of eight. -/
def Model.Oct.nth {α : Type} (a : Oct α) : Nat → α
  | 0 => a.d0
  | 1 => a.d1
  | 2 => a.d2
  | 3 => a.d3
  | 4 => a.d4
  | 5 => a.d5
  | 6 => a.d6
  | _ => a.d7

/-- Eight values of a function. -/
def oct {α : Type} (f : Nat → α) : Oct α := ⟨f 0, f 1, f 2, f 3, f 4, f 5, f 6, f 7⟩

theorem butterfly_ok {s : Oct Int} (h : OctB s 69000) {bias : Int} (hb : 0 ≤ bias) (hb' : bias ≤ 16842752) (sh : Nat) :
    butterfly bias sh ⟨evenP s 0, evenP s 1, evenP s 2, evenP s 3, oddP s 3, oddP s 2, oddP s 1, oddP s 0⟩ =
      .ok (oct fun k => (xf s k + bias) / 2 ^ sh) := by
  obtain ⟨s0, s1, s2, s3, s4, s5, s6, s7⟩ := s
  simp only [OctB] at h
  obtain ⟨⟨h0, h0'⟩, ⟨h1, h1'⟩, ⟨h2, h2'⟩, ⟨h3, h3'⟩, ⟨h4, h4'⟩, ⟨h5, h5'⟩, ⟨h6, h6'⟩, ⟨h7, h7'⟩⟩ := h
  simp only [butterfly, evenP, oddP]
  iterate 12 rw [i32_ok (by unfold IsI32; omega), ok_bind]
  refine congrArg Except.ok ?_
  simp only [oct, xf, evenP, oddP]
  congr 1 <;> congr 1 <;> ring

theorem idct1_run {s : Oct Int} (h : OctB s 69000) {bias : Int} (hb : 0 ≤ bias) (hb' : bias ≤ 16842752) (sh : Nat) :
    (idct1D s >>= butterfly bias sh) = .ok (oct fun k => (xf s k + bias) / 2 ^ sh) := by
  rw [idct1D_ok h, ok_bind, butterfly_ok h hb hb']

theorem take8_ok {rdAt : Nat → CM Int} {i step : Nat} {f : Nat → Int} (h : ∀ k < 8, rdAt (i + k * step) = .ok (f k)) :
    take8 rdAt i step = .ok (oct f) := by
  have h0 := h 0 (by omega)
  have h1 := h 1 (by omega)
  rw [zero_mul, add_zero] at h0
  rw [one_mul] at h1
  simp only [take8, h0, h1, h 2 (by omega), h 3 (by omega), h 4 (by omega), h 5 (by omega), h 6 (by omega), h 7 (by omega), ok_bind]
  rfl

theorem wr_eq {α : Type} {v : Cells α} {i : Nat} (h : i < v.length) (a : α) : wr v i a = .ok (v.set i (some a)) := by
  unfold wr; rw [if_pos h]

theorem put8_ok {α : Type} {v : Cells α} {i step : Nat} (h : i + 7 * step < v.length) (hs : 0 < step) (a : Oct α) :
    Ok (put8 v i step a) fun v' => v'.length = v.length ∧ (∀ k < 8, v'[i + k * step]? = some (some (a.nth k))) ∧
      ∀ p, (∀ k < 8, p ≠ i + k * step) → v'[p]? = v[p]? := by
  have e : put8 v i step a = .ok ((((((((v.set i (some a.d0)).set (i + step) (some a.d1)).set (i + 2 * step) (some a.d2)).set (i + 3 * step)
      (some a.d3)).set (i + 4 * step) (some a.d4)).set (i + 5 * step) (some a.d5)).set (i + 6 * step) (some a.d6)).set (i + 7 * step) (some a.d7)) := by
    unfold put8
    rw [wr_eq (by omega), ok_bind, wr_eq (by simp only [List.length_set]; omega), ok_bind, wr_eq (by simp only [List.length_set]; omega), ok_bind,
      wr_eq (by simp only [List.length_set]; omega), ok_bind, wr_eq (by simp only [List.length_set]; omega), ok_bind,
      wr_eq (by simp only [List.length_set]; omega), ok_bind, wr_eq (by simp only [List.length_set]; omega), ok_bind,
      wr_eq (by simp only [List.length_set]; omega)]
  refine Ok.of_eq e ⟨by simp only [List.length_set], ?_, ?_⟩
  · intro k hk
    have : k = 0 ∨ k = 1 ∨ k = 2 ∨ k = 3 ∨ k = 4 ∨ k = 5 ∨ k = 6 ∨ k = 7 := by omega
    rcases this with rfl | rfl | rfl | rfl | rfl | rfl | rfl | rfl
    · rw [Nat.zero_mul, Nat.add_zero]; rw [List.getElem?_set_ne (by omega), List.getElem?_set_ne (by omega), List.getElem?_set_ne (by omega), List.getElem?_set_ne (by omega), List.getElem?_set_ne (by omega), List.getElem?_set_ne (by omega), List.getElem?_set_ne (by omega), List.getElem?_set_self (by omega)]; rfl
    · rw [Nat.one_mul]; rw [List.getElem?_set_ne (by omega), List.getElem?_set_ne (by omega), List.getElem?_set_ne (by omega), List.getElem?_set_ne (by omega), List.getElem?_set_ne (by omega), List.getElem?_set_ne (by omega), List.getElem?_set_self (by simp only [List.length_set]; omega)]; rfl
    · rw [List.getElem?_set_ne (by omega), List.getElem?_set_ne (by omega), List.getElem?_set_ne (by omega), List.getElem?_set_ne (by omega), List.getElem?_set_ne (by omega), List.getElem?_set_self (by simp only [List.length_set]; omega)]; rfl
    · rw [List.getElem?_set_ne (by omega), List.getElem?_set_ne (by omega), List.getElem?_set_ne (by omega), List.getElem?_set_ne (by omega), List.getElem?_set_self (by simp only [List.length_set]; omega)]; rfl
    · rw [List.getElem?_set_ne (by omega), List.getElem?_set_ne (by omega), List.getElem?_set_ne (by omega), List.getElem?_set_self (by simp only [List.length_set]; omega)]; rfl
    · rw [List.getElem?_set_ne (by omega), List.getElem?_set_ne (by omega), List.getElem?_set_self (by simp only [List.length_set]; omega)]; rfl
    · rw [List.getElem?_set_ne (by omega), List.getElem?_set_self (by simp only [List.length_set]; omega)]; rfl
    · rw [List.getElem?_set_self (by simp only [List.length_set]; omega)]; rfl
  · intro p hp
    have h0 := hp 0 (by omega)
    have h1 := hp 1 (by omega)
    have h2 := hp 2 (by omega)
    have h3 := hp 3 (by omega)
    have h4 := hp 4 (by omega)
    have h5 := hp 5 (by omega)
    have h6 := hp 6 (by omega)
    have h7 := hp 7 (by omega)
    rw [Nat.zero_mul, Nat.add_zero] at h0
    rw [Nat.one_mul] at h1
    rw [List.getElem?_set_ne (Ne.symm h7), List.getElem?_set_ne (Ne.symm h6), List.getElem?_set_ne (Ne.symm h5), List.getElem?_set_ne (Ne.symm h4),
      List.getElem?_set_ne (Ne.symm h3), List.getElem?_set_ne (Ne.symm h2), List.getElem?_set_ne (Ne.symm h1), List.getElem?_set_ne (Ne.symm h0)]

/-- The value in row `r` and column `i` after the first pass. -/
def colV (D : Nat → Int) (r i : Nat) : Int := (xf (oct fun k => D (i + k * 8)) r + 512) / 2 ^ 10

/-- The sample in row `r` and column `c`, before it is limited to a byte. -/
def idctV (D : Nat → Int) (r c : Nat) : Int := (xf (oct fun k => colV D r k) c + (65536 + 16777216)) / 2 ^ 17

theorem octB_of {f : Nat → Int} {B : Int} (h : ∀ k < 8, -B ≤ f k ∧ f k ≤ B) : OctB (oct f) B :=
  ⟨h 0 (by omega), h 1 (by omega), h 2 (by omega), h 3 (by omega), h 4 (by omega), h 5 (by omega), h 6 (by omega), h 7 (by omega)⟩

/-- How large the results of one pass are. -/
theorem xf_le {s : Oct Int} {B : Int} (h : OctB s B) (k : Nat) : -(30610 * B) ≤ xf s k ∧ xf s k ≤ 30610 * B := by
  obtain ⟨s0, s1, s2, s3, s4, s5, s6, s7⟩ := s
  simp only [OctB] at h
  obtain ⟨⟨h0, h0'⟩, ⟨h1, h1'⟩, ⟨h2, h2'⟩, ⟨h3, h3'⟩, ⟨h4, h4'⟩, ⟨h5, h5'⟩, ⟨h6, h6'⟩, ⟨h7, h7'⟩⟩ := h
  match k with
  | 0 => simp only [xf, evenP, oddP]; omega
  | 1 => simp only [xf, evenP, oddP]; omega
  | 2 => simp only [xf, evenP, oddP]; omega
  | 3 => simp only [xf, evenP, oddP]; omega
  | 4 => simp only [xf, evenP, oddP]; omega
  | 5 => simp only [xf, evenP, oddP]; omega
  | 6 => simp only [xf, evenP, oddP]; omega
  | k + 7 => simp only [xf, evenP, oddP]; omega

theorem colV_le {D : Nat → Int} (h : ∀ k < 64, -2300 ≤ D k ∧ D k ≤ 2300) {i : Nat} (hi : i < 8) (r : Nat) :
    -69000 ≤ colV D r i ∧ colV D r i ≤ 69000 := by
  have := xf_le (octB_of (f := fun k => D (i + k * 8)) fun k hk => h (i + k * 8) (by omega)) r
  unfold colV
  omega

theorem idctColumn_ok {data : List Int} (hl : data.length = 64) (h : ∀ k < 64, -2300 ≤ data.getD k 0 ∧ data.getD k 0 ≤ 2300) {i : Nat} (hi : i < 8)
    {v : Cells Int} (hv : v.length = 64) :
    Ok (idctColumn data i v) fun v' => v'.length = 64 ∧ (∀ r < 8, v'[i + r * 8]? = some (some (colV (fun k => data.getD k 0) r i))) ∧
      ∀ p, (∀ r < 8, p ≠ i + r * 8) → v'[p]? = v[p]? := by
  have hs : take8 (rdIn data) i 8 = .ok (oct fun k => data.getD (i + k * 8) 0) := by
    refine take8_ok fun k hk => ?_
    unfold rdIn
    rw [List.getD_eq_getElem?_getD, List.getElem?_eq_getElem (show i + k * 8 < data.length by omega)]; rfl
  unfold idctColumn
  rw [hs, ok_bind]
  split
  · rename_i hz
    simp only [oct] at hz
    have h0 := h (i + 0 * 8) (by omega)
    rw [i32_ok (by simp only [oct]; unfold IsI32; omega), ok_bind]
    refine (put8_ok (by omega) (by omega) _).mono fun v' h' => ⟨h'.1.trans hv, fun r hr => ?_, h'.2.2⟩
    rw [h'.2.1 r hr]
    have e : ∀ r, colV (fun k => data.getD k 0) r i = data.getD (i + 0 * 8) 0 * 4 := by
      intro r
      have : xf (oct fun k => data.getD (i + k * 8) 0) r = 4096 * data.getD (i + 0 * 8) 0 := by
        match r with
        | 0 | 1 | 2 | 3 | 4 | 5 | 6 => simp only [xf, evenP, oddP, oct, hz]; ring
        | r + 7 => simp only [xf, evenP, oddP, oct, hz]; ring
      unfold colV
      rw [this]
      omega
    rw [e]
    match r with
    | 0 | 1 | 2 | 3 | 4 | 5 | 6 => rfl
    | r + 7 => rfl
  · have hb := octB_of (B := 2300) (f := fun k => data.getD (i + k * 8) 0) fun k hk => h (i + k * 8) (by omega)
    have hb' : OctB (oct fun k => data.getD (i + k * 8) 0) 69000 := octB_of fun k hk => by have := h (i + k * 8) (by omega); omega
    rw [← bind_assoc, idct1_run hb' (by omega) (by omega), ok_bind]
    refine (put8_ok (by omega) (by omega) _).mono fun v' h' => ⟨h'.1.trans hv, fun r hr => ?_, h'.2.2⟩
    rw [h'.2.1 r hr]
    have : r = 0 ∨ r = 1 ∨ r = 2 ∨ r = 3 ∨ r = 4 ∨ r = 5 ∨ r = 6 ∨ r = 7 := by omega
    rcases this with rfl | rfl | rfl | rfl | rfl | rfl | rfl | rfl <;> rfl

theorem idctRow_ok {D : Nat → Int} (h : ∀ k < 64, -2300 ≤ D k ∧ D k ≤ 2300) {v : Cells Int}
    (hv : ∀ r < 8, ∀ i < 8, v[i + r * 8]? = some (some (colV D r i))) {i : Nat} (hi : i < 8) {out : Cells UInt8} {off : Nat}
    (ho : off + 7 < out.length) :
    Ok (idctRow v i off out) fun out' => out'.length = out.length ∧ (∀ c < 8, out'[off + c]? = some (some (stbClamp (idctV D i c)))) ∧
      ∀ p, (∀ c < 8, p ≠ off + c) → out'[p]? = out[p]? := by
  have hs : take8 (rd v) (8 * i) 1 = .ok (oct fun k => colV D i k) := by
    refine take8_ok fun k hk => ?_
    unfold rd
    rw [show 8 * i + k * 1 = k + i * 8 by omega, hv i hi k hk]
  unfold idctRow
  rw [hs, ok_bind, ← bind_assoc, idct1_run (octB_of fun k hk => colV_le h hk i) (by omega) (by omega), ok_bind]
  refine (put8_ok (by omega) (by omega) _).mono fun out' h' => ⟨h'.1, fun c hc => ?_, fun p hp => h'.2.2 p fun k hk => by rw [Nat.mul_one]; exact hp k hk⟩
  have := h'.2.1 c hc
  rw [Nat.mul_one] at this
  rw [this]
  have : c = 0 ∨ c = 1 ∨ c = 2 ∨ c = 3 ∨ c = 4 ∨ c = 5 ∨ c = 6 ∨ c = 7 := by omega
  rcases this with rfl | rfl | rfl | rfl | rfl | rfl | rfl | rfl <;> rfl

/-- The transform of one block writes the 64 samples and nothing else. -/
theorem idct_block_ok {data : List Int} (hl : data.length = 64) (h : ∀ k < 64, -2300 ≤ data.getD k 0 ∧ data.getD k 0 ≤ 2300)
    {out : Cells UInt8} {off stride : Nat} (hs : 8 ≤ stride) (ho : off + 7 * stride + 7 < out.length) :
    Ok (idct_block out off stride data) fun out' => out'.length = out.length ∧
      (∀ r < 8, ∀ c < 8, out'[off + r * stride + c]? = some (some (stbClamp (idctV (fun k => data.getD k 0) r c)))) ∧
      ∀ p, (∀ r < 8, ∀ c < 8, p ≠ off + r * stride + c) → out'[p]? = out[p]? := by
  unfold idct_block
  refine Ok.bind (P := fun (v : Cells Int) => v.length = 64 ∧ ∀ r < 8, ∀ i < 8, v[i + r * 8]? = some (some (colV (fun k => data.getD k 0) r i))) ?_ ?_
  · refine (forN_ok (I := fun n (v : Cells Int) => v.length = 64 ∧ ∀ r < 8, ∀ i < n, v[i + r * 8]? = some (some (colV (fun k => data.getD k 0) r i)))
      ⟨by simp, fun r hr i hi => absurd hi (by omega)⟩ ?_).mono fun v hv => hv
    intro n hn v ⟨hv, hV⟩
    refine (idctColumn_ok hl h hn hv).mono fun v' h' => ⟨h'.1, fun r hr i hi => ?_⟩
    by_cases hin : i = n
    · rw [hin]; exact h'.2.1 r hr
    · rw [h'.2.2 _ fun r' hr' => by omega]
      exact hV r hr i (by omega)
  · intro v ⟨hv, hV⟩
    refine (forN_ok (I := fun n (o : Cells UInt8) => o.length = out.length ∧
      (∀ r < n, ∀ c < 8, o[off + r * stride + c]? = some (some (stbClamp (idctV (fun k => data.getD k 0) r c)))) ∧
      ∀ p, (∀ r < n, ∀ c < 8, p ≠ off + r * stride + c) → o[p]? = out[p]?)
      ⟨rfl, fun r hr => absurd hr (by omega), fun p _ => rfl⟩ ?_).mono fun o ho => ho
    intro n hn o ⟨hol, hO, hR⟩
    have hb : n * stride ≤ 7 * stride := Nat.mul_le_mul_right _ (by omega)
    refine (idctRow_ok h hV hn (off := off + n * stride) (by omega)).mono fun o' h' => ⟨h'.1.trans hol, fun r hr c hc => ?_, fun p hp => ?_⟩
    · by_cases hrn : r = n
      · rw [hrn]; exact h'.2.1 c hc
      · rw [h'.2.2 _ fun c' hc' => ?_]
        · exact hO r (by omega) c hc
        · have : (r + 1) * stride ≤ n * stride := Nat.mul_le_mul_right _ (by omega)
          rw [Nat.add_mul] at this
          omega
    · rw [h'.2.2 _ fun c hc => hp n (by omega) c hc]
      exact hR p fun r hr => hp r (by omega)

end FlatCV
