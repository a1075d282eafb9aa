/-
C144: the scans of progressive JPEG files restore the coefficients. The first scan of a band gives the coefficients without their low bits, and
each further scan adds one bit, as in annex G of T.81; after the last one the coefficients are exactly those that were coded.
-/
import Verif.Lemmas.JpegFirst

namespace FlatCV.Props
open Model Jpg

variable {m : UInt8} {tail : List UInt8}

theorem band_sub (C : Nat → Int) (ss se : Nat) : Sub C ss (band C ss se) := by
  intro p a hp
  unfold band at hp
  rw [List.getElem?_map] at hp
  by_cases h : p < se + 1 - ss
  · rw [List.getElem?_range h, Option.map_some, Option.some.injEq] at hp
    exact hp
  · rw [List.getElem?_eq_none (by rw [List.length_range]; omega)] at hp
    exact absurd hp (by simp)

theorem band_length (C : Nat → Int) {ss se : Nat} : (band C ss se).length = se + 1 - ss := by
  unfold band
  rw [List.length_map, List.length_range]

theorem band_ne (C : Nat → Int) {ss se : Nat} (h : ss ≤ se) : band C ss se ≠ [] := by
  rw [← List.length_pos_iff, band_length]
  omega

/-- C144: the first scan of a band, in a block with codes of its own. -/
theorem first_scan_block (hm : m ≠ 0) (hm' : m ≠ 0xFF) (q : ScanPar) (hsh : q.sh = 0) (h1 : 1 ≤ q.ss) (h2 : q.ss ≤ q.se) (h63 : q.se ≤ 63) (C : Nat → Int) (hC : ∀ p, (C p).natAbs ≤ 32767)
    (h : JHuff) (fac : List Int) (t : List ((Nat × Nat) × Nat)) (ht : tableOk h t = true) (hf : facOk fac h t = true) (e : Ent) (b rest : List Bool) (hE : EntOk m tail e b) (eob : Nat)
    (hR : First (asCode t) q.sl (band C q.ss q.se) eob b rest) (cf : Cells Int) (off : Nat)
    (hcf : ∀ p, q.ss ≤ p → p ≤ q.se → cf[off + zagOf p]? = some (some 0)) :
    ∃ cf' e', prog_ac q e h fac 0 cf off = .ok (some (cf', eob, e')) ∧ EntOk m tail e' rest ∧
      (∀ p, q.ss ≤ p → p ≤ q.se → cf'[off + zagOf p]? = some (some (coarse q.sl (C p)))) ∧
      ∀ a, (∀ p, q.ss ≤ p → p ≤ q.se → a ≠ off + zagOf p) → cf'[a]? = cf[a]? := by
  obtain ⟨a, r1, r2, r3, r4, r5⟩ := first_code (q := q) (off := off) (cf0 := cf) hm hm' hC h63 ht hf hR q.ss 64 e cf (band_ne C h2) (band_sub C _ _) le_rfl
    (by rw [band_length]; omega) (by rw [band_length]; omega) ⟨fun p _ _ => by omega, hcf, fun _ _ => rfl⟩ hE
  refine ⟨a.cf, a.e, ?_, r4, fun p hp1 hp2 => r5.fin p hp1 (by omega), r5.out⟩
  unfold prog_ac
  rw [if_neg (by omega), if_pos hsh, if_neg (by simp), r1, ok_bind, r3, if_pos rfl, r2]
  rfl

/-- C144: the first scan of a band, in a block inside a run of ended blocks: its coefficients remain zero. -/
theorem first_scan_run (q : ScanPar) (hsh : q.sh = 0) (h1 : 1 ≤ q.ss) (h : JHuff) (fac : List Int) (e : Ent) (eob : Nat) (he : eob ≠ 0) (cf : Cells Int) (off : Nat) :
    prog_ac q e h fac eob cf off = .ok (some (cf, eob - 1, e)) := by
  unfold prog_ac
  rw [if_neg (by omega), if_pos hsh, if_pos he]
  rfl

/-- C144: a further scan of a band, in a block with codes of its own. -/
theorem refining_scan_block (hm : m ≠ 0) (hm' : m ≠ 0xFF) (q : ScanPar) (hsh : q.sh ≠ 0) (h1 : 1 ≤ q.ss) (h2 : q.ss ≤ q.se) (h63 : q.se ≤ 63) (C : Nat → Int) (hC : ∀ p, (C p).natAbs ≤ 32767)
    (h : JHuff) (fac : List Int) (t : List ((Nat × Nat) × Nat)) (ht : tableOk h t = true) (e : Ent) (b rest : List Bool) (hE : EntOk m tail e b) (eob : Nat)
    (hR : Refined (asCode t) q.sl (band C q.ss q.se) eob b rest) (cf : Cells Int) (off : Nat)
    (hcf : ∀ p, q.ss ≤ p → p ≤ q.se → cf[off + zagOf p]? = some (some (coarse (q.sl + 1) (C p)))) :
    ∃ cf' e', prog_ac q e h fac 0 cf off = .ok (some (cf', eob, e')) ∧ EntOk m tail e' rest ∧
      (∀ p, q.ss ≤ p → p ≤ q.se → cf'[off + zagOf p]? = some (some (coarse q.sl (C p)))) ∧
      ∀ a, (∀ p, q.ss ≤ p → p ≤ q.se → a ≠ off + zagOf p) → cf'[a]? = cf[a]? := by
  obtain ⟨e', cf', r1, r2, r3⟩ := refine_code (q := q) (off := off) (cf0 := cf) hm hm' hC h63 ht hR q.ss 64 e cf (band_ne C h2) (band_sub C _ _) le_rfl
    (by rw [band_length]; omega) (by rw [band_length]; omega) ⟨fun p _ _ => by omega, hcf, fun _ _ => rfl⟩ hE
  refine ⟨cf', e', ?_, r2, fun p hp1 hp2 => r3.fin p hp1 (by omega), r3.out⟩
  unfold prog_ac
  rw [if_neg (by omega), if_neg hsh, if_neg (by simp), r1, ok_bind]
  rfl

/-- C144: a further scan of a band, in a block inside a run of ended blocks: only correction bits. -/
theorem refining_scan_run (hm : m ≠ 0) (hm' : m ≠ 0xFF) (q : ScanPar) (hsh : q.sh ≠ 0) (h1 : 1 ≤ q.ss) (h2 : q.ss ≤ q.se) (h63 : q.se ≤ 63) (C : Nat → Int) (hC : ∀ p, (C p).natAbs ≤ 32767)
    (h : JHuff) (fac : List Int) (e : Ent) (rest : List Bool) (hE : EntOk m tail e (corrections q.sl (band C q.ss q.se) ++ rest)) (eob : Nat) (he : eob ≠ 0)
    (hcs : ∀ a ∈ band C q.ss q.se, old q.sl a = true ∨ small q.sl a = true) (cf : Cells Int) (off : Nat)
    (hcf : ∀ p, q.ss ≤ p → p ≤ q.se → cf[off + zagOf p]? = some (some (coarse (q.sl + 1) (C p)))) :
    ∃ cf' e', prog_ac q e h fac eob cf off = .ok (some (cf', eob - 1, e')) ∧ EntOk m tail e' rest ∧
      (∀ p, q.ss ≤ p → p ≤ q.se → cf'[off + zagOf p]? = some (some (coarse q.sl (C p)))) ∧
      ∀ a, (∀ p, q.ss ≤ p → p ≤ q.se → a ≠ off + zagOf p) → cf'[a]? = cf[a]? := by
  obtain ⟨e', cf', r1, r2, r3⟩ := refine_run (q := q) (off := off) (cf0 := cf) hm hm' hC h63 hcs (band_sub C _ _) (by rw [band_length]; omega) ⟨fun p _ _ => by omega, hcf, fun _ _ => rfl⟩ hE
  refine ⟨cf', e', ?_, r2, fun p hp1 hp2 => r3.fin p hp1 (by omega), r3.out⟩
  unfold prog_ac
  rw [if_neg (by omega), if_neg hsh, if_pos he, r1, ok_bind]
  rfl

/-- C144: the first scan of the first coefficient: its prediction and the coded difference give the coefficient without its low bits; the other coefficients of the block become zero. -/
theorem first_scan_dc (hm : m ≠ 0) (hm' : m ≠ 0xFF) (q : ScanPar) (hse : q.se = 0) (hsh : q.sh = 0) (hdc : JHuff) (t : List ((Nat × Nat) × Nat)) (ht : tableOk hdc t = true)
    (e : Ent) (b b1 rest : List Bool) (hE : EntOk m tail e b) (s x : Nat) (hs : symbol (asCode t) b = some (s, b1)) (h15 : s ≤ 15) (hx : receive s b1 = some (x, rest))
    (pred : Int) (hp : |pred| ≤ 32767) (c : Int) (hc : |coarseDc q.sl c| ≤ 32767) (hd : pred + (if s = 0 then 0 else extend x s) = c / 2 ^ q.sl)
    (cf : Cells Int) (off : Nat) (hoff : off + 64 ≤ cf.length) :
    ∃ cf' e', prog_dc q e hdc pred cf off = .ok (some (cf', c / 2 ^ q.sl, e')) ∧ EntOk m tail e' rest ∧ cf'[off]? = some (some (coarseDc q.sl c)) ∧
      (∀ i, 1 ≤ i → i < 64 → cf'[off + i]? = some (some 0)) ∧ ∀ a, (a < off ∨ off + 64 ≤ a) → cf'[a]? = cf[a]? := by
  unfold prog_dc
  obtain ⟨j1, e1, k1, -, -⟩ := need_ok hm hm' hE (n := 16) (by omega)
  obtain ⟨j2, e2, k2, -, -⟩ := jhuff_ok hm hm' ht k1 hs
  rw [if_neg (by simp [hse]), e1, ok_bind, if_pos hsh]
  obtain ⟨cz, hz, hz0, hz1, hz2⟩ : ∃ cz, (forN 64 cf fun i cf => wr cf (off + i) 0) = .ok cz ∧ cz.length = cf.length ∧ (∀ i < 64, cz[off + i]? = some (some 0)) ∧
      ∀ a, (a < off ∨ off + 64 ≤ a) → cz[a]? = cf[a]? := by
    have hI : Ok (forN 64 cf fun i cf => wr cf (off + i) 0) fun cz => cz.length = cf.length ∧ (∀ i < 64, cz[off + i]? = some (some 0)) ∧ ∀ a, (a < off ∨ off + 64 ≤ a) → cz[a]? = cf[a]? := by
      refine forN_ok (fun n (cz : Cells Int) => cz.length = cf.length ∧ (∀ i < n, cz[off + i]? = some (some 0)) ∧ ∀ a, (a < off ∨ off + 64 ≤ a) → cz[a]? = cf[a]?) ⟨rfl, fun i hi => by omega, fun _ _ => rfl⟩ ?_
      rintro i hi s ⟨a1, a2, a3⟩
      refine ⟨s.set (off + i) (some 0), wr_eq (by omega) 0, by rw [List.length_set, a1], fun p hp => ?_, fun a ha => ?_⟩
      · by_cases hpi : p = i
        · subst hpi
          exact List.getElem?_set_self (by omega)
        · rw [List.getElem?_set_ne (by omega)]
          exact a2 p (by omega)
      · rw [List.getElem?_set_ne (by omega)]
        exact a3 a ha
    obtain ⟨cz, g1, g2⟩ := hI
    exact ⟨cz, g1, g2⟩
  rw [hz, ok_bind, e2, ok_bind]
  dsimp only
  rw [if_neg (by omega)]
  obtain ⟨j3, e3, k3⟩ : ∃ j3, dcDiff j2 s = .ok (if s = 0 then 0 else extend x s, j3) ∧ EntOk m tail j3 rest := by
    unfold dcDiff
    by_cases h0 : s = 0
    · subst h0
      rw [if_neg (by simp), if_pos rfl]
      obtain ⟨-, -, rfl⟩ := receive_some hx
      exact ⟨j2, rfl, k2⟩
    · rw [if_pos (by omega), if_neg h0, Int.toNat_natCast]
      obtain ⟨j3, a1, a2, -⟩ := extend_ok hm hm' k2 (by omega) h15 hx
      exact ⟨j3, a1, a2⟩
  rw [e3, ok_bind]
  dsimp only
  have hb : |(pred + (if s = 0 then 0 else extend x s)) * ((2 ^ q.sl : Nat) : Int)| ≤ 32767 := by
    rw [hd]
    push_cast
    exact hc
  obtain ⟨v1, v2, v3, v4⟩ := dc_valid (q := 2 ^ q.sl) Nat.one_le_two_pow hp hb
  have hcc : c / 2 ^ q.sl * ((2 ^ q.sl : Nat) : Int) = coarseDc q.sl c := by
    push_cast
    rfl
  rw [v1, if_neg (by simp), i32_ok v3, ok_bind, v2, if_neg (by simp), hd, hcc, i32_ok (by have := abs_le.1 hc; unfold IsI32; omega), ok_bind, asShort_id hc, wr_eq (by omega), ok_bind]
  refine ⟨_, j3, rfl, k3, List.getElem?_set_self (by omega), fun i hi1 hi2 => ?_, fun a ha => ?_⟩
  · rw [List.getElem?_set_ne (by omega)]
    exact hz1 i hi2
  · rw [List.getElem?_set_ne (by omega)]
    exact hz2 a ha

/-- C144: a further scan of the first coefficient adds its next bit. -/
theorem refining_scan_dc (hm : m ≠ 0) (hm' : m ≠ 0xFF) (q : ScanPar) (hse : q.se = 0) (hsh : q.sh ≠ 0) (hdc : JHuff) (e : Ent) (c : Int) (rest : List Bool)
    (hE : EntOk m tail e (decide (c / 2 ^ q.sl % 2 = 1) :: rest)) (pred : Int) (hc : |coarseDc q.sl c| ≤ 32767) (cf : Cells Int) (off : Nat)
    (hcf : cf[off]? = some (some (coarseDc (q.sl + 1) c))) :
    ∃ e', prog_dc q e hdc pred cf off = .ok (some (cf.set off (some (coarseDc q.sl c)), pred, e')) ∧ EntOk m tail e' rest := by
  unfold prog_dc
  obtain ⟨j1, e1, k1, -, -⟩ := need_ok hm hm' hE (n := 16) (by omega)
  obtain ⟨j2, e2, k2⟩ := progBit_ok hm hm' k1
  rw [if_neg (by simp [hse]), e1, ok_bind, if_neg hsh, e2, ok_bind]
  dsimp only
  refine ⟨j2, ?_, k2⟩
  have hstep : coarseDc q.sl c = coarseDc (q.sl + 1) c + (if c / 2 ^ q.sl % 2 = 1 then 2 ^ q.sl else 0) := by
    unfold coarseDc
    have hq : c / 2 ^ (q.sl + 1) = c / 2 ^ q.sl / 2 := by rw [Int.ediv_ediv_of_nonneg (by positivity), pow_succ]
    rw [hq, pow_succ]
    generalize c / 2 ^ q.sl = a
    generalize (2 : Int) ^ q.sl = P
    split
    · obtain ⟨d, hd⟩ : ∃ d, a / 2 = d := ⟨_, rfl⟩
      obtain rfl : a = d * 2 + 1 := by omega
      rw [hd]
      ring
    · obtain ⟨d, hd⟩ : ∃ d, a / 2 = d := ⟨_, rfl⟩
      obtain rfl : a = d * 2 := by omega
      rw [hd]
      ring
  have hlt := (List.getElem?_eq_some_iff.1 hcf).1
  by_cases hbit : c / 2 ^ q.sl % 2 = 1
  · rw [if_pos hbit] at hstep
    rw [if_pos (decide_eq_true hbit), rd_cell hcf, ok_bind, ← hstep, asShort_id hc, wr_eq hlt, ok_bind]
    rfl
  · rw [if_neg hbit, add_zero] at hstep
    rw [if_neg (by simp [hbit]), set_same (by rw [hstep]; exact hcf)]
    rfl

/-- C144: when no low bits are missing, the coefficients are exact. -/
theorem last_scan (c : Int) : coarse 0 c = c ∧ coarseDc 0 c = c := by
  unfold coarse coarseDc
  constructor
  · rw [pow_zero, Nat.div_one, Nat.mul_one]
    split <;> omega
  · rw [pow_zero, Int.ediv_one, mul_one]

end FlatCV.Props
