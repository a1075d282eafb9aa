/-
The JPEG decoder: blocks.
-/
import Verif.Lemmas.JpegHuff

namespace FlatCV
open Model Jpg

variable {m : UInt8} {tail : List UInt8}

theorem receive_some {n v : Nat} {R rest : List Bool} (h : receive n R = some (v, rest)) : n ≤ R.length ∧ v = Jpg.value (R.take n) ∧ rest = R.drop n := by
  unfold receive at h
  split at h
  · rename_i hn
    rw [Option.some.injEq, Prod.mk.injEq] at h
    exact ⟨hn, h.1.symm, h.2.symm⟩
  · exact absurd h (by simp)

/-- One run of zeros and the coefficient after it. -/
theorem acStep_run (hm : m ≠ 0) (hm' : m ≠ 0xFF) {h : JHuff} {fac : List Int} {t : List ((Nat × Nat) × Nat)} (ht : tableOk h t = true)
    (hf : facOk fac h t = true) {dq : List Nat} (hdq : dq.length = 64) {a : AcSt} {R b1 b2 : List Bool} (hj : EntOk m tail a.j R) {rs v : Nat}
    (hs : symbol (asCode t) R = some (rs, b1)) (hz : rs % 16 ≠ 0) (hr : receive (rs % 16) b1 = some (v, b2)) {pre : List Int} (hpre : a.k = pre.length)
    (hd : Zd dq a.data pre) (hlt : pre.length + rs / 16 < 64) (hv : |extend v (rs % 16) * (dq.getD (zagOf (pre.length + rs / 16)) 0 : Nat)| ≤ 32767) :
    ∃ j' d', acStep h fac dq a = .ok (⟨j', pre.length + rs / 16 + 1, d', true⟩, decide (64 ≤ pre.length + rs / 16 + 1)) ∧ EntOk m tail j' b2 ∧
      j'.s.file = a.j.s.file ∧ Zd dq d' (pre ++ List.replicate (rs / 16) 0 ++ [extend v (rs % 16)]) := by
  unfold acStep
  obtain ⟨j1, e1, k1, kf, kb⟩ := need_ok hm hm' hj (n := 16) (by omega)
  rw [e1, ok_bind]
  have htop : j1.buf / 2 ^ 23 < 512 := by
    have := buf_lt k1
    omega
  rw [Nat.mod_eq_of_lt htop]
  have hlen : (pre ++ List.replicate (rs / 16) 0).length = pre.length + rs / 16 := by simp
  obtain ⟨d', ed, hd'⟩ := putCoef_ok hdq (hd.zeros (rs / 16)) (v := extend v (rs % 16)) (by rw [hlen]; exact hlt) (by rw [hlen]; exact hv)
  rw [hlen] at ed
  obtain ⟨r, i, g1, g2, g3⟩ := facOk_get hf htop
  rw [rdIn_ok g1, ok_bind]
  by_cases hr0 : r = 0
  · rw [if_neg (by simpa using hr0)]
    obtain ⟨j2, e2, k2, kf2, hv256⟩ := jhuff_ok hm hm' ht k1 hs
    obtain ⟨j3, e3, k3, kf3⟩ := extend_ok hm hm' k2 (by omega) (by omega) hr
    rw [e2, ok_bind]
    dsimp only
    rw [if_neg (by omega), if_neg (by omega), hpre]
    have q1 : ((rs : Int) / 16).toNat = rs / 16 := by omega
    have q2 : ((rs : Int) % 16).toNat = rs % 16 := by omega
    rw [q1, q2, e3, ok_bind]
    dsimp only
    rw [ed, ok_bind]
    exact ⟨_, _, rfl, k3, kf3.trans (kf2.trans kf), hd'⟩
  · rw [if_pos hr0]
    rcases g3 with g3 | ⟨hi, e, he, g4, g5, g6⟩
    · exact absurd g3 hr0
    · obtain ⟨i', ⟨⟨c, l⟩, v'⟩, hi', rfl, hl, htk, rfl⟩ := symbol_entry hs
      have hen := tableOk_get ht hi'
      unfold entryOk at hen
      dsimp only at hen hl htk hr hv hd' ed hlt ⊢
      simp only [Bool.and_eq_true, decide_eq_true_eq, beq_iff_eq] at hen
      obtain ⟨⟨⟨⟨⟨⟨⟨h1, h16⟩, hc⟩, hi255⟩, hv256⟩, hsz⟩, hval⟩, hen⟩ := hen
      have hlb : (l : Int) ≤ j1.bits := by
        have : l ≤ min 16 R.length := by omega
        omega
      obtain ⟨f1, f2⟩ := front_bits k1 hlb hl
      rw [htk, value_msb, Nat.mod_eq_of_lt hc] at f1
      have hii : i = i' := by
        by_cases h9 : l ≤ 9
        · rw [if_pos h9, List.all_eq_true] at hen
          have e2 : j1.buf / 2 ^ 23 / 2 ^ (9 - l) = c := by
            rw [Nat.div_div_eq_div_mul, ← pow_add, show 23 + (9 - l) = 32 - l by omega, f1]
          have e3 : j1.buf / 2 ^ 23 = c * 2 ^ (9 - l) + j1.buf / 2 ^ 23 % 2 ^ (9 - l) := by
            rw [← e2]
            exact (Nat.div_add_mod' _ _).symm
          have := hen (j1.buf / 2 ^ 23 % 2 ^ (9 - l)) (List.mem_range.2 (Nat.mod_lt _ (by positivity)))
          rw [beq_iff_eq, ← e3, g2] at this
          exact Option.some.inj this
        · rw [if_neg h9] at hen
          simp only [Bool.and_eq_true, beq_iff_eq] at hen
          have e2 : j1.buf / 2 ^ 23 = c / 2 ^ (l - 9) := by
            rw [← f1, Nat.div_div_eq_div_mul, ← pow_add, show 32 - l + (l - 9) = 23 by omega]
          have := hen.1.1.1.1
          rw [← e2, g2] at this
          exact absurd (Option.some.inj this) (by omega)
      subst hii
      rw [hi', Option.some.injEq] at he
      subst he
      dsimp only at g4 g5 g6
      obtain ⟨hn, rfl, rfl⟩ := receive_some hr
      rw [List.length_drop] at hn
      have hsum : l + rs % 16 ≤ R.length := by omega
      have hsb : ((l + rs % 16 : Nat) : Int) ≤ j1.bits := by
        have : l + rs % 16 ≤ min 16 R.length := by omega
        omega
      obtain ⟨f3, _⟩ := front_bits k1 hsb hsum
      have hval2 : j1.buf / 2 ^ 23 / 2 ^ (9 - l - rs % 16) % 2 ^ (rs % 16) = Jpg.value ((R.drop l).take (rs % 16)) := by
        rw [Nat.div_div_eq_div_mul, ← pow_add, show 23 + (9 - l - rs % 16) = 32 - (l + rs % 16) by omega, f3, List.take_add, value_append]
        have hlen2 : ((R.drop l).take (rs % 16)).length = rs % 16 := by rw [List.length_take, List.length_drop]; omega
        have := value_lt ((R.drop l).take (rs % 16))
        rw [hlen2] at this ⊢
        rw [Nat.mul_comm, Nat.mul_add_mod, Nat.mod_eq_of_lt this]
      rw [hval2] at g6
      generalize extend (Jpg.value ((R.drop l).take (rs % 16))) (rs % 16) = X at g6 hv ed hd' ⊢
      have q1 : (r / 16 % 16).toNat = rs / 16 := by omega
      have q2 : (r % 16).toNat = l + rs % 16 := by omega
      have q3 : r / 256 = X := by omega
      rw [q1, q2, q3, if_neg (by omega), hpre, ed, ok_bind]
      refine ⟨_, _, rfl, ?_, kf, hd'⟩
      have := drop_ok k1 hsb hsum
      rw [List.drop_drop]
      exact this

/-- The end of a block, and sixteen zeros. -/
theorem acStep_zero (hm : m ≠ 0) (hm' : m ≠ 0xFF) {h : JHuff} {fac : List Int} {t : List ((Nat × Nat) × Nat)} (ht : tableOk h t = true)
    (hf : facOk fac h t = true) {dq : List Nat} {a : AcSt} {R b1 : List Bool} (hj : EntOk m tail a.j R) {rs : Nat}
    (hs : symbol (asCode t) R = some (rs, b1)) (hz : rs % 16 = 0) :
    ∃ j', acStep h fac dq a = .ok (if rs ≠ 0xF0 then ({ a with j := j' }, true) else ({ a with j := j', k := a.k + 16 }, decide (64 ≤ a.k + 16))) ∧
      EntOk m tail j' b1 ∧ j'.s.file = a.j.s.file := by
  unfold acStep
  obtain ⟨j1, e1, k1, kf, kb⟩ := need_ok hm hm' hj (n := 16) (by omega)
  rw [e1, ok_bind]
  have htop : j1.buf / 2 ^ 23 < 512 := by
    have := buf_lt k1
    omega
  rw [Nat.mod_eq_of_lt htop]
  obtain ⟨r, i, g1, g2, g3⟩ := facOk_get hf htop
  rw [rdIn_ok g1, ok_bind]
  have hr0 : r = 0 := by
    rcases g3 with g3 | ⟨hi, e, he, g4, g5, g6⟩
    · exact g3
    · exfalso
      obtain ⟨i', ⟨⟨c, l⟩, v'⟩, hi', rfl, hl, htk, rfl⟩ := symbol_entry hs
      have hen := tableOk_get ht hi'
      unfold entryOk at hen
      dsimp only at hen hl htk hz
      simp only [Bool.and_eq_true, decide_eq_true_eq, beq_iff_eq] at hen
      obtain ⟨⟨⟨⟨⟨⟨⟨h1, h16⟩, hc⟩, hi255⟩, hv256⟩, hsz⟩, hval⟩, hen⟩ := hen
      have hlb : (l : Int) ≤ j1.bits := by
        have : l ≤ min 16 R.length := by omega
        omega
      obtain ⟨f1, f2⟩ := front_bits k1 hlb hl
      rw [htk, value_msb, Nat.mod_eq_of_lt hc] at f1
      have hii : i = i' := by
        by_cases h9 : l ≤ 9
        · rw [if_pos h9, List.all_eq_true] at hen
          have e2 : j1.buf / 2 ^ 23 / 2 ^ (9 - l) = c := by
            rw [Nat.div_div_eq_div_mul, ← pow_add, show 23 + (9 - l) = 32 - l by omega, f1]
          have e3 : j1.buf / 2 ^ 23 = c * 2 ^ (9 - l) + j1.buf / 2 ^ 23 % 2 ^ (9 - l) := by
            rw [← e2]
            exact (Nat.div_add_mod' _ _).symm
          have := hen (j1.buf / 2 ^ 23 % 2 ^ (9 - l)) (List.mem_range.2 (Nat.mod_lt _ (by positivity)))
          rw [beq_iff_eq, ← e3, g2] at this
          exact Option.some.inj this
        · rw [if_neg h9] at hen
          simp only [Bool.and_eq_true, beq_iff_eq] at hen
          have e2 : j1.buf / 2 ^ 23 = c / 2 ^ (l - 9) := by
            rw [← f1, Nat.div_div_eq_div_mul, ← pow_add, show 32 - l + (l - 9) = 23 by omega]
          have := hen.1.1.1.1
          rw [← e2, g2] at this
          exact absurd (Option.some.inj this) (by omega)
      subst hii
      rw [hi', Option.some.injEq] at he
      subst he
      dsimp only at g4
      omega
  rw [if_neg (by simpa using hr0)]
  obtain ⟨j2, e2, k2, kf2, hv256⟩ := jhuff_ok hm hm' ht k1 hs
  rw [e2, ok_bind]
  dsimp only
  rw [if_neg (by omega), if_pos (by omega)]
  refine ⟨j2, ?_, k2, kf2.trans kf⟩
  by_cases h0 : rs = 0xF0
  · rw [if_neg (by omega), if_neg (by omega)]
    rfl
  · rw [if_pos (by omega), if_pos h0]
    rfl

/-- The coefficients of a block after the first. -/
theorem ac_ok (hm : m ≠ 0) (hm' : m ≠ 0xFF) {h : JHuff} {fac : List Int} {t : List ((Nat × Nat) × Nat)} (ht : tableOk h t = true)
    (hf : facOk fac h t = true) {dq : List Nat} (hdq : dq.length = 64) : ∀ (f n : Nat) (R b' : List Bool) (l pre : List Int) (j : Ent) (data : List Int),
    decodeAC (asCode t) f n R = some (l, b') → 0 < n → pre.length + n = 64 → Zd dq data pre → EntOk m tail j R →
    (∀ p < 64, |(pre ++ l).getD p 0 * (dq.getD (zagOf p) 0 : Nat)| ≤ 32767) →
    ∃ a, whileFuel f ⟨j, pre.length, data, true⟩ (acStep h fac dq) = .ok a ∧ a.ok = true ∧ EntOk m tail a.j b' ∧ a.j.s.file = j.s.file ∧
      Zd dq a.data (pre ++ l) := by
  intro f
  induction f with
  | zero =>
    intro n R b' l pre j data hd hn
    obtain ⟨n, rfl⟩ : ∃ k, n = k + 1 := ⟨n - 1, by omega⟩
    unfold decodeAC at hd
    exact absurd hd (by simp)
  | succ f ih =>
    intro n R b' l pre j data hd hn hlen hz hj hb
    obtain ⟨n, rfl⟩ : ∃ k, n = k + 1 := ⟨n - 1, by omega⟩
    unfold decodeAC at hd
    cases hs : symbol (asCode t) R with
    | none => rw [hs] at hd; exact absurd hd (by simp)
    | some p =>
      obtain ⟨rs, b1⟩ := p
      rw [hs] at hd
      dsimp only [Option.bind_eq_bind, Option.bind] at hd
      by_cases h0 : rs = 0
      · rw [if_pos h0, Option.some.injEq, Prod.mk.injEq] at hd
        obtain ⟨rfl, rfl⟩ := hd
        obtain ⟨j', e, k, kf⟩ := acStep_zero (a := ⟨j, pre.length, data, true⟩) hm hm' ht hf (dq := dq) hj hs (by omega)
        rw [if_pos (by omega)] at e
        exact ⟨_, whileFuel_stop e, rfl, k, kf, hz.zeros _⟩
      · rw [if_neg h0] at hd
        by_cases hF : rs = 0xF0
        · rw [if_pos hF] at hd
          split at hd
          · rename_i h16
            obtain ⟨j', e, k, kf⟩ := acStep_zero (a := ⟨j, pre.length, data, true⟩) hm hm' ht hf (dq := dq) hj hs (by omega)
            rw [if_neg (by simpa using hF)] at e
            dsimp only at e
            cases hr : decodeAC (asCode t) f (n + 1 - 16) b1 with
            | none => rw [hr] at hd; exact absurd hd (by simp)
            | some q =>
              obtain ⟨l2, b2⟩ := q
              rw [hr] at hd
              simp only [Option.some.injEq, Prod.mk.injEq] at hd
              obtain ⟨rfl, rfl⟩ := hd
              rcases Nat.eq_zero_or_pos (n + 1 - 16) with h0' | hpos
              · rw [h0'] at hr
                unfold decodeAC at hr
                rw [Option.some.injEq, Prod.mk.injEq] at hr
                obtain ⟨rfl, rfl⟩ := hr
                rw [decide_eq_true (by omega)] at e
                refine ⟨_, whileFuel_stop e, rfl, k, kf, ?_⟩
                rw [List.append_nil]
                exact hz.zeros _
              · rw [decide_eq_false (by omega)] at e
                rw [whileFuel_cont e]
                have hl2 : (pre ++ List.replicate 16 0).length = pre.length + 16 := by simp
                obtain ⟨a, ea, k1, k2, k3, k4⟩ := ih _ _ _ _ (pre ++ List.replicate 16 0) j' data hr hpos (by omega) (hz.zeros 16) k
                  (by rw [List.append_assoc]; exact hb)
                rw [hl2] at ea
                refine ⟨a, ea, k1, k2, k3.trans kf, ?_⟩
                rw [List.append_assoc] at k4
                exact k4
          · exact absurd hd (by simp)
        · rw [if_neg hF] at hd
          split at hd
          · exact absurd hd (by simp)
          · rename_i hz16
            split at hd
            · rename_i hrun
              cases hr : receive (rs % 16) b1 with
              | none => rw [hr] at hd; exact absurd hd (by simp)
              | some q =>
                obtain ⟨v, b2⟩ := q
                rw [hr] at hd
                dsimp only at hd
                cases hr2 : decodeAC (asCode t) f (n - rs / 16) b2 with
                | none => rw [hr2] at hd; exact absurd hd (by simp)
                | some q2 =>
                  obtain ⟨l2, b3⟩ := q2
                  rw [hr2] at hd
                  simp only [Option.some.injEq, Prod.mk.injEq] at hd
                  obtain ⟨rfl, rfl⟩ := hd
                  have hget : (pre ++ (List.replicate (rs / 16) 0 ++ extend v (rs % 16) :: l2)).getD (pre.length + rs / 16) 0 = extend v (rs % 16) := by
                    rw [List.getD_eq_getElem?_getD, List.getElem?_append_right (by omega), List.getElem?_append_right (by rw [List.length_replicate]; omega), List.length_replicate,
                      Nat.add_sub_cancel_left, Nat.sub_self]
                    rfl
                  have hbv := hb (pre.length + rs / 16) (by omega)
                  rw [hget] at hbv
                  obtain ⟨j', d', e, k, kf, kz⟩ := acStep_run (a := ⟨j, pre.length, data, true⟩) hm hm' ht hf hdq hj hs hz16 hr rfl hz (by omega) hbv
                  rcases Nat.eq_zero_or_pos (n - rs / 16) with h0' | hpos
                  · rw [h0'] at hr2
                    unfold decodeAC at hr2
                    rw [Option.some.injEq, Prod.mk.injEq] at hr2
                    obtain ⟨rfl, rfl⟩ := hr2
                    rw [decide_eq_true (by omega)] at e
                    refine ⟨_, whileFuel_stop e, rfl, k, kf, ?_⟩
                    rw [← List.append_assoc]
                    exact kz
                  · rw [decide_eq_false (by omega)] at e
                    rw [whileFuel_cont e]
                    have hl2 : (pre ++ List.replicate (rs / 16) 0 ++ [extend v (rs % 16)]).length = pre.length + rs / 16 + 1 := by simp; omega
                    have happ : pre ++ List.replicate (rs / 16) 0 ++ [extend v (rs % 16)] ++ l2 = pre ++ (List.replicate (rs / 16) 0 ++ extend v (rs % 16) :: l2) := by simp
                    obtain ⟨a, ea, k1, k2, k3, k4⟩ := ih _ _ _ _ (pre ++ List.replicate (rs / 16) 0 ++ [extend v (rs % 16)]) j' d' hr2 hpos
                      (by omega) kz k (by rw [happ]; exact hb)
                    rw [hl2] at ea
                    refine ⟨a, ea, k1, k2, k3.trans kf, ?_⟩
                    rw [happ] at k4
                    exact k4
            · exact absurd hd (by simp)

/-- The prediction plus the difference, and its product with the step, are accepted. -/
theorem dc_valid {pred d : Int} {q : Nat} (hq : 1 ≤ q) (hp : |pred| ≤ 32767) (h : |(pred + d) * q| ≤ 32767) :
    addintsValid pred d = true ∧ mul2shortsValid (pred + d) q = true ∧ IsI32 (pred + d) ∧ |pred + d| ≤ 32767 := by
  have h1 : |pred + d| ≤ |(pred + d) * q| := by
    rw [abs_mul]
    have : (1 : Int) ≤ |(q : Int)| := by rw [abs_of_nonneg (by omega)]; omega
    nlinarith [abs_nonneg (pred + d)]
  have h2 := h1.trans h
  have hq' : (0 : Int) < q := by omega
  have h3 := abs_le.1 h
  rw [abs_le] at h2 hp
  refine ⟨?_, ?_, by unfold IsI32; omega, abs_le.2 h2⟩
  · unfold addintsValid
    split
    · rfl
    · split
      · exact decide_eq_true (by omega)
      · exact decide_eq_true (by omega)
  · unfold mul2shortsValid
    rw [if_neg (by omega)]
    split
    · rename_i hs
      rw [decide_eq_true (show (0 : Int) ≤ q by omega), decide_eq_true_eq] at hs
      rw [decide_eq_true_eq, Int.tdiv_eq_ediv_of_nonneg (by norm_num), Int.le_ediv_iff_mul_le hq']
      exact h3.2
    · rw [if_neg (by omega), decide_eq_true_eq, show (-32768 : Int) = -(32768 : Int) by norm_num, Int.neg_tdiv, Int.tdiv_eq_ediv_of_nonneg (by norm_num)]
      have : -(pred + d) ≤ (32768 : Int) / q := by
        rw [Int.le_ediv_iff_mul_le hq']
        linarith [h3.1]
      omega

/-- A block. -/
theorem decode_block_ok (hm : m ≠ 0) (hm' : m ≠ 0xFF) {hdc hac : JHuff} {fac : List Int} {td ta : List ((Nat × Nat) × Nat)} (h1 : tableOk hdc td = true)
    (h15 : ∀ e ∈ td, e.2 ≤ 15) (h2 : tableOk hac ta = true) (h3 : facOk fac hac ta = true) {dq : List Nat} (hdq : dq.length = 64) (hq : 1 ≤ dq.getD 0 0)
    {j : Ent} {R rest : List Bool} (hj : EntOk m tail j R) {pred : Int} (hp : |pred| ≤ 32767) {l : List Int}
    (hd : decodeBlock (asCode td) (asCode ta) pred R = some (l, rest)) (hb : ∀ p < 64, |l.getD p 0 * (dq.getD (zagOf p) 0 : Nat)| ≤ 32767) :
    ∃ data j', j_decode_block j hdc hac fac pred dq = .ok (some (data, l.getD 0 0, j')) ∧ EntOk m tail j' rest ∧ j'.s.file = j.s.file ∧ Zd dq data l ∧
      |l.getD 0 0| ≤ 32767 := by
  unfold decodeBlock decodeDC at hd
  cases hs : symbol (asCode td) R with
  | none => rw [hs] at hd; exact absurd hd (by simp)
  | some p =>
    obtain ⟨s, b1⟩ := p
    rw [hs] at hd
    dsimp only [Option.bind_eq_bind, Option.bind] at hd
    cases hr : receive s b1 with
    | none => rw [hr] at hd; exact absurd hd (by simp)
    | some p2 =>
      obtain ⟨v, b2⟩ := p2
      rw [hr] at hd
      dsimp only at hd
      have hs15 : s ≤ 15 := by
        obtain ⟨i, e, hi, rfl, _⟩ := symbol_entry hs
        exact h15 e (List.mem_of_getElem? hi)
      obtain ⟨d, hd'⟩ : ∃ d : Int, (if s = 0 then some ((0 : Int), b2) else some (extend v s, b2)) = some (d, b2) ∧ d = if s = 0 then 0 else extend v s := by
        by_cases h0 : s = 0
        · exact ⟨0, by rw [if_pos h0], by rw [if_pos h0]⟩
        · exact ⟨extend v s, by rw [if_neg h0], by rw [if_neg h0]⟩
      rw [hd'.1] at hd
      dsimp only at hd
      cases ha : decodeAC (asCode ta) 64 63 b2 with
      | none => rw [ha] at hd; exact absurd hd (by simp)
      | some p3 =>
        obtain ⟨l2, b3⟩ := p3
        rw [ha] at hd
        simp only [Option.some.injEq, Prod.mk.injEq] at hd
        obtain ⟨rfl, rfl⟩ := hd
        unfold j_decode_block
        obtain ⟨j1, e1, k1, kf1, -⟩ := need_ok hm hm' hj (n := 16) (by omega)
        obtain ⟨j2, e2, k2, kf2, -⟩ := jhuff_ok hm hm' h1 k1 hs
        rw [e1, ok_bind, e2, ok_bind]
        dsimp only
        rw [if_neg (by omega)]
        obtain ⟨j3, e3, k3, kf3⟩ : ∃ j3, dcDiff j2 s = .ok (d, j3) ∧ EntOk m tail j3 b2 ∧
            j3.s.file = j2.s.file := by
          unfold dcDiff
          by_cases h0 : s = 0
          · subst h0
            rw [if_neg (by simp), hd'.2, if_pos rfl]
            obtain ⟨-, -, rfl⟩ := receive_some hr
            exact ⟨j2, rfl, k2, rfl⟩
          · rw [if_pos (by omega), hd'.2, if_neg h0, Int.toNat_natCast]
            exact extend_ok hm hm' k2 (by omega) hs15 hr
        rw [e3, ok_bind]
        dsimp only
        have hz0 : zagOf 0 = 0 := by decide
        have hb0 := hb 0 (by omega)
        rw [hz0, List.getD_cons_zero] at hb0
        obtain ⟨v1, v2, v3, v4⟩ := dc_valid hq hp hb0
        have hqg : dq[0]? = some (dq.getD 0 0) := by
          rw [List.getD_eq_getElem?_getD, List.getElem?_eq_getElem (by omega)]
          rfl
        have v5 := abs_le.1 hb0
        rw [if_neg (by rw [v1]; decide), i32_ok v3, ok_bind, rdIn_ok hqg, ok_bind, if_neg (by rw [v2]; decide), i32_ok (by unfold IsI32; omega), ok_bind, asShort_id hb0]
        have hset : Zd dq (List.set (List.replicate 64 (0 : Int)) 0 ((pred + d) * (dq.getD 0 0 : Nat))) [pred + d] := by
          refine ⟨by simp, fun p hp => ?_⟩
          rcases Nat.eq_zero_or_pos p with rfl | hpos
          · rw [hz0]
            rfl
          · have hne : 0 ≠ zagOf p := fun e => by
              have := zagOf_inj 0 (by omega) p hp (hz0.trans e)
              omega
            have e0 : ([pred + d] : List Int).getD p 0 = 0 := by
              rw [List.getD_eq_getElem?_getD, List.getElem?_eq_none (by simp; omega)]
              rfl
            rw [e0, zero_mul, List.getD_eq_getElem?_getD, List.getElem?_set_ne hne, List.getElem?_replicate]
            split <;> rfl
        have hw : wrIn (List.replicate 64 (0 : Int)) 0 ((pred + d) * (dq.getD 0 0 : Nat)) = .ok (List.set (List.replicate 64 (0 : Int)) 0 ((pred + d) * (dq.getD 0 0 : Nat))) := by
          unfold wrIn
          rw [if_pos (by simp)]
        rw [hw, ok_bind]
        obtain ⟨a, ea, a1, a2, a3, a4⟩ := ac_ok hm hm' h2 h3 hdq 64 63 b2 b3 l2 [pred + d] j3 _ ha (by omega) (by simp) hset k3 hb
        have ea' : whileFuel 64 (⟨j3, 1, List.set (List.replicate 64 (0 : Int)) 0 ((pred + d) * (dq.getD 0 0 : Nat)), true⟩ : AcSt) (acStep hac fac dq) = .ok a := ea
        rw [ea', ok_bind, a1, if_pos rfl]
        exact ⟨_, _, rfl, a2, a3.trans (kf3.trans (kf2.trans kf1)), a4, v4⟩

end FlatCV
