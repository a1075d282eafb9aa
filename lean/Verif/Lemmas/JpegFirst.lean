/-
The first scans of progressive JPEG files.
-/
import Verif.Lemmas.JpegRefine
import Verif.Lemmas.JpegDecBlock

namespace FlatCV
open Model Jpg

variable {m : UInt8} {tail : List UInt8}

theorem putFirst_ok {q : ScanPar} {cf : Cells Int} {off k : Nat} {v : Int} (hk : k < 64) (hcell : off + zagOf k < cf.length) (hv : |v * 2 ^ q.sl| ≤ 32767) :
    putFirst q cf off k v = .ok (cf.set (off + zagOf k) (some (v * 2 ^ q.sl))) := by
  unfold putFirst
  have hc : ((2 ^ q.sl : Nat) : Int) = 2 ^ q.sl := by push_cast; rfl
  have := abs_le.1 hv
  rw [rdIn_ok (zag_get k hk), ok_bind, hc, i32_ok (by unfold IsI32; omega), ok_bind, asShort_id hv, wr_eq hcell]

/-- A run of zeros and the coefficient after it. -/
theorem firstStep_run (hm : m ≠ 0) (hm' : m ≠ 0xFF) {q : ScanPar} {h : JHuff} {fac : List Int} {t : List ((Nat × Nat) × Nat)} (ht : tableOk h t = true)
    (hf : facOk fac h t = true) {off : Nat} {a : PacSt} {R b1 b2 : List Bool} (hj : EntOk m tail a.e R) {rs v : Nat}
    (hs : symbol (asCode t) R = some (rs, b1)) (hz : rs % 16 ≠ 0) (hr : receive (rs % 16) b1 = some (v, b2)) (hlt : a.k + rs / 16 < 64)
    (hcell : off + zagOf (a.k + rs / 16) < a.cf.length) (hv : |extend v (rs % 16) * 2 ^ q.sl| ≤ 32767) :
    ∃ e', firstStep q h fac off a = .ok (⟨e', a.k + rs / 16 + 1, a.cf.set (off + zagOf (a.k + rs / 16)) (some (extend v (rs % 16) * 2 ^ q.sl)), a.eob, true⟩,
      decide (q.se < a.k + rs / 16 + 1)) ∧ EntOk m tail e' b2 := by
  unfold firstStep
  obtain ⟨j1, e1, k1, kf, kb⟩ := need_ok hm hm' hj (n := 16) (by omega)
  rw [e1, ok_bind]
  have htop : j1.buf / 2 ^ 23 < 512 := by
    have := buf_lt k1
    omega
  rw [Nat.mod_eq_of_lt htop]
  have ed := putFirst_ok (q := q) (off := off) (v := extend v (rs % 16)) (by omega : a.k + rs / 16 < 64) hcell hv
  obtain ⟨r, i, g1, g2, g3⟩ := facOk_get hf htop
  rw [rdIn_ok g1, ok_bind]
  by_cases hr0 : r = 0
  · rw [if_neg (by simpa using hr0)]
    obtain ⟨j2, e2, k2, kf2, hv256⟩ := jhuff_ok hm hm' ht k1 hs
    obtain ⟨j3, e3, k3, kf3⟩ := extend_ok hm hm' k2 (by omega) (by omega) hr
    rw [e2, ok_bind]
    dsimp only
    rw [if_neg (by omega), if_neg (by omega)]
    have q1 : ((rs : Int) / 16).toNat = rs / 16 := by omega
    have q2 : ((rs : Int) % 16).toNat = rs % 16 := by omega
    rw [q1, q2, e3, ok_bind]
    dsimp only
    rw [ed, ok_bind]
    exact ⟨_, rfl, k3⟩
  · rw [if_pos hr0]
    rcases g3 with g3 | ⟨hi, e, he, g4, g5, g6⟩
    · exact absurd g3 hr0
    · obtain ⟨i', ⟨⟨c, l⟩, v'⟩, hi', rfl, hl, htk, rfl⟩ := symbol_entry hs
      have hen := tableOk_get ht hi'
      unfold entryOk at hen
      dsimp only at hen hl htk hr hv hcell ed hlt ⊢
      simp only [Bool.and_eq_true, decide_eq_true_eq, beq_iff_eq] at hen
      obtain ⟨⟨⟨⟨⟨⟨⟨h1, h16⟩, hc⟩, hi255⟩, hv256⟩, hsz⟩, hval⟩, hen⟩ := hen
      have hlb : (l : Int) ≤ j1.bits := by
        have : l ≤ min 16 R.length := by omega
        omega
      obtain ⟨f1, f2⟩ := front_bits k1 hlb hl
      rw [htk, value_msb, Nat.mod_eq_of_lt hc] at f1
      have hii : i = i' := by
        by_cases h9 : l ≤ 9
        · rw [if_pos h9, List.all_eq_true] at hen
          have e2 : j1.buf / 2 ^ 23 / 2 ^ (9 - l) = c := by
            rw [Nat.div_div_eq_div_mul, ← pow_add, show 23 + (9 - l) = 32 - l by omega, f1]
          have e3 : j1.buf / 2 ^ 23 = c * 2 ^ (9 - l) + j1.buf / 2 ^ 23 % 2 ^ (9 - l) := by
            rw [← e2]
            exact (Nat.div_add_mod' _ _).symm
          have := hen (j1.buf / 2 ^ 23 % 2 ^ (9 - l)) (List.mem_range.2 (Nat.mod_lt _ (by positivity)))
          rw [beq_iff_eq, ← e3, g2] at this
          exact Option.some.inj this
        · rw [if_neg h9] at hen
          simp only [Bool.and_eq_true, beq_iff_eq] at hen
          have e2 : j1.buf / 2 ^ 23 = c / 2 ^ (l - 9) := by
            rw [← f1, Nat.div_div_eq_div_mul, ← pow_add, show 32 - l + (l - 9) = 23 by omega]
          have := hen.1.1.1.1
          rw [← e2, g2] at this
          exact absurd (Option.some.inj this) (by omega)
      subst hii
      rw [hi', Option.some.injEq] at he
      subst he
      dsimp only at g4 g5 g6
      obtain ⟨hn, rfl, rfl⟩ := receive_some hr
      rw [List.length_drop] at hn
      have hsum : l + rs % 16 ≤ R.length := by omega
      have hsb : ((l + rs % 16 : Nat) : Int) ≤ j1.bits := by
        have : l + rs % 16 ≤ min 16 R.length := by omega
        omega
      obtain ⟨f3, _⟩ := front_bits k1 hsb hsum
      have hval2 : j1.buf / 2 ^ 23 / 2 ^ (9 - l - rs % 16) % 2 ^ (rs % 16) = Jpg.value ((R.drop l).take (rs % 16)) := by
        rw [Nat.div_div_eq_div_mul, ← pow_add, show 23 + (9 - l - rs % 16) = 32 - (l + rs % 16) by omega, f3, List.take_add, value_append]
        have hlen2 : ((R.drop l).take (rs % 16)).length = rs % 16 := by rw [List.length_take, List.length_drop]; omega
        have := value_lt ((R.drop l).take (rs % 16))
        rw [hlen2] at this ⊢
        rw [Nat.mul_comm, Nat.mul_add_mod, Nat.mod_eq_of_lt this]
      rw [hval2] at g6
      generalize extend (Jpg.value ((R.drop l).take (rs % 16))) (rs % 16) = X at g6 hv ed ⊢
      have q1 : (r / 16 % 16).toNat = rs / 16 := by omega
      have q2 : (r % 16).toNat = l + rs % 16 := by omega
      have q3 : r / 256 = X := by omega
      rw [q1, q2, q3, if_neg (by omega), ed, ok_bind]
      refine ⟨_, rfl, ?_⟩
      have := drop_ok k1 hsb hsum
      rw [List.drop_drop]
      exact this

/-- Codes without a coefficient. -/
theorem firstStep_zero (hm : m ≠ 0) (hm' : m ≠ 0xFF) {q : ScanPar} {h : JHuff} {fac : List Int} {t : List ((Nat × Nat) × Nat)} (ht : tableOk h t = true)
    (hf : facOk fac h t = true) {off : Nat} {a : PacSt} {R b1 : List Bool} (hj : EntOk m tail a.e R) {rs : Nat}
    (hs : symbol (asCode t) R = some (rs, b1)) (hz : rs % 16 = 0) :
    ∃ e', firstStep q h fac off a = (if rs / 16 < 15 then do
        let (x, e) ← eobBits e' (rs / 16)
        Pure.pure ({ a with e := e, eob := 2 ^ (rs / 16) + x - 1 }, true)
      else Pure.pure ({ a with e := e', k := a.k + 16 }, decide (q.se < a.k + 16))) ∧ EntOk m tail e' b1 := by
  unfold firstStep
  obtain ⟨j1, e1, k1, kf, kb⟩ := need_ok hm hm' hj (n := 16) (by omega)
  rw [e1, ok_bind]
  have htop : j1.buf / 2 ^ 23 < 512 := by
    have := buf_lt k1
    omega
  rw [Nat.mod_eq_of_lt htop]
  obtain ⟨r, i, g1, g2, g3⟩ := facOk_get hf htop
  rw [rdIn_ok g1, ok_bind]
  have hr0 : r = 0 := by
    rcases g3 with g3 | ⟨hi, e, he, g4, g5, g6⟩
    · exact g3
    · exfalso
      obtain ⟨i', ⟨⟨c, l⟩, v'⟩, hi', rfl, hl, htk, rfl⟩ := symbol_entry hs
      have hen := tableOk_get ht hi'
      unfold entryOk at hen
      dsimp only at hen hl htk hz
      simp only [Bool.and_eq_true, decide_eq_true_eq, beq_iff_eq] at hen
      obtain ⟨⟨⟨⟨⟨⟨⟨h1, h16⟩, hc⟩, hi255⟩, hv256⟩, hsz⟩, hval⟩, hen⟩ := hen
      have hlb : (l : Int) ≤ j1.bits := by
        have : l ≤ min 16 R.length := by omega
        omega
      obtain ⟨f1, f2⟩ := front_bits k1 hlb hl
      rw [htk, value_msb, Nat.mod_eq_of_lt hc] at f1
      have hii : i = i' := by
        by_cases h9 : l ≤ 9
        · rw [if_pos h9, List.all_eq_true] at hen
          have e2 : j1.buf / 2 ^ 23 / 2 ^ (9 - l) = c := by
            rw [Nat.div_div_eq_div_mul, ← pow_add, show 23 + (9 - l) = 32 - l by omega, f1]
          have e3 : j1.buf / 2 ^ 23 = c * 2 ^ (9 - l) + j1.buf / 2 ^ 23 % 2 ^ (9 - l) := by
            rw [← e2]
            exact (Nat.div_add_mod' _ _).symm
          have := hen (j1.buf / 2 ^ 23 % 2 ^ (9 - l)) (List.mem_range.2 (Nat.mod_lt _ (by positivity)))
          rw [beq_iff_eq, ← e3, g2] at this
          exact Option.some.inj this
        · rw [if_neg h9] at hen
          simp only [Bool.and_eq_true, beq_iff_eq] at hen
          have e2 : j1.buf / 2 ^ 23 = c / 2 ^ (l - 9) := by
            rw [← f1, Nat.div_div_eq_div_mul, ← pow_add, show 32 - l + (l - 9) = 23 by omega]
          have := hen.1.1.1.1
          rw [← e2, g2] at this
          exact absurd (Option.some.inj this) (by omega)
      subst hii
      rw [hi', Option.some.injEq] at he
      subst he
      dsimp only at g4
      omega
  rw [if_neg (by simpa using hr0)]
  obtain ⟨j2, e2, k2, kf2, hv256⟩ := jhuff_ok hm hm' ht k1 hs
  rw [e2, ok_bind]
  dsimp only
  rw [if_neg (by omega), if_pos (by omega)]
  refine ⟨j2, ?_, k2⟩
  rw [show ((rs : Int) / 16).toNat = rs / 16 by omega]
  by_cases h15 : rs / 16 < 15
  · rw [if_pos (by omega), if_pos h15]
  · rw [if_neg (by omega), if_neg h15]

/-! ### The band -/

/-- The coefficients before position `i` of the band are there, the others in the band are zero; those outside the band are as before. -/
structure MidF (q : ScanPar) (off : Nat) (C : Nat → Int) (cf0 cf : Cells Int) (i : Nat) : Prop where
  fin : ∀ p, q.ss ≤ p → p < i → cf[off + zagOf p]? = some (some (coarse q.sl (C p)))
  todo : ∀ p, i ≤ p → p ≤ q.se → cf[off + zagOf p]? = some (some 0)
  out : ∀ a, (∀ p, q.ss ≤ p → p ≤ q.se → a ≠ off + zagOf p) → cf[a]? = cf0[a]?

theorem MidF.step {q : ScanPar} {off : Nat} {C : Nat → Int} {cf0 cf : Cells Int} {i : Nat} (h : MidF q off C cf0 cf i) (h1 : q.ss ≤ i) (h2 : i ≤ q.se) (h3 : q.se ≤ 63) :
    MidF q off C cf0 (cf.set (off + zagOf i) (some (coarse q.sl (C i)))) (i + 1) := by
  have hi := (List.getElem?_eq_some_iff.1 (h.todo i le_rfl h2)).1
  refine ⟨fun p hp1 hp2 => ?_, fun p hp1 hp2 => ?_, fun a ha => ?_⟩
  · by_cases e : p = i
    · subst e
      exact List.getElem?_set_self hi
    · rw [List.getElem?_set_ne (fun e' => e (zagOf_inj _ (by omega) _ (by omega) (by omega)).symm)]
      exact h.fin p hp1 (by omega)
  · rw [List.getElem?_set_ne (fun e' => absurd (zagOf_inj _ (by omega) _ (by omega) (show zagOf i = zagOf p by omega)) (by omega))]
    exact h.todo p (by omega) hp2
  · rw [List.getElem?_set_ne (fun e' => ha i h1 h2 e'.symm)]
    exact h.out a ha

theorem MidF.skip {q : ScanPar} {off : Nat} {C : Nat → Int} {cf0 cf : Cells Int} : ∀ (seg : List Int) (i : Nat), MidF q off C cf0 cf i → Sub C i seg → (∀ a ∈ seg, small q.sl a = true) →
    i + seg.length ≤ q.se + 1 → MidF q off C cf0 cf (i + seg.length) := by
  intro seg i h hS hs hle
  refine ⟨fun p hp1 hp2 => ?_, fun p hp1 hp2 => h.todo p (by omega) hp2, h.out⟩
  by_cases hpi : p < i
  · exact h.fin p hp1 hpi
  · have hlt : p - i < seg.length := by omega
    have e := hS (p - i) seg[p - i] (List.getElem?_eq_getElem hlt)
    rw [show i + (p - i) = p by omega] at e
    have hsm := of_decide_eq_true (hs _ (List.getElem_mem hlt))
    rw [h.todo p (by omega) (by omega), e, coarse_small hsm]

theorem first_nil {t : Code} {k : Nat} {cs : List Int} {eob : Nat} {b rest : List Bool} (h : First t k cs eob b rest) (hcs : cs = []) : eob = 0 ∧ b = rest := by
  cases h with
  | done => exact ⟨rfl, rfl⟩
  | value => simp at hcs
  | zeros _ hn => rw [List.append_eq_nil_iff] at hcs; rw [hcs.1] at hn; exact absurd hn (by decide)
  | ended _ _ _ hne => exact absurd hcs hne

/-- All codes of a block. -/
theorem first_code (hm : m ≠ 0) (hm' : m ≠ 0xFF) {q : ScanPar} {off : Nat} {C : Nat → Int} (hC : ∀ p, (C p).natAbs ≤ 32767) (h63 : q.se ≤ 63) {cf0 : Cells Int} {h : JHuff} {fac : List Int}
    {t : List ((Nat × Nat) × Nat)} (ht : tableOk h t = true) (hf : facOk fac h t = true) {cs : List Int} {eob : Nat} {b rest : List Bool} (hR : First (asCode t) q.sl cs eob b rest) :
    ∀ (i fuel : Nat) (e : Ent) (cf : Cells Int), cs ≠ [] → Sub C i cs → q.ss ≤ i → i + cs.length = q.se + 1 → cs.length ≤ fuel → MidF q off C cf0 cf i → EntOk m tail e b →
      ∃ a : PacSt, whileFuel fuel (⟨e, i, cf, 0, true⟩ : PacSt) (firstStep q h fac off) = .ok a ∧ a.eob = eob ∧ a.ok = true ∧ EntOk m tail a.e rest ∧ MidF q off C cf0 a.cf (q.se + 1) := by
  -- after a code, at position `i'`
  have onward : ∀ {cs : List Int} {eob : Nat} {b' rest : List Bool}, First (asCode t) q.sl cs eob b' rest →
      (∀ (i fuel : Nat) (e : Ent) (cf : Cells Int), cs ≠ [] → Sub C i cs → q.ss ≤ i → i + cs.length = q.se + 1 → cs.length ≤ fuel → MidF q off C cf0 cf i → EntOk m tail e b' →
        ∃ a : PacSt, whileFuel fuel (⟨e, i, cf, 0, true⟩ : PacSt) (firstStep q h fac off) = .ok a ∧ a.eob = eob ∧ a.ok = true ∧ EntOk m tail a.e rest ∧ MidF q off C cf0 a.cf (q.se + 1)) →
      ∀ (s : PacSt) (i' fuel : Nat) (e' : Ent) (cf' : Cells Int), Sub C i' cs → q.ss ≤ i' → i' + cs.length = q.se + 1 → cs.length + 1 ≤ fuel → MidF q off C cf0 cf' i' → EntOk m tail e' b' →
        firstStep q h fac off s = .ok (⟨e', i', cf', 0, true⟩, decide (q.se < i')) →
        ∃ a : PacSt, whileFuel fuel s (firstStep q h fac off) = .ok a ∧ a.eob = eob ∧ a.ok = true ∧ EntOk m tail a.e rest ∧ MidF q off C cf0 a.cf (q.se + 1) := by
    intro cs eob b' rest hR ih s i' fuel e' cf' hS hi hlen hfuel hM hE hstep
    obtain ⟨f, rfl⟩ : ∃ f, fuel = f + 1 := ⟨fuel - 1, by omega⟩
    by_cases hcs : cs = []
    · obtain ⟨rfl, rfl⟩ := first_nil hR hcs
      subst hcs
      rw [List.length_nil, Nat.add_zero] at hlen
      subst hlen
      rw [decide_eq_true (by omega)] at hstep
      exact ⟨_, whileFuel_stop hstep, rfl, rfl, hE, hM⟩
    · have hpos : 0 < cs.length := List.length_pos_iff.2 hcs
      obtain ⟨a, r1, r2⟩ := ih i' f e' cf' hcs hS hi hlen (by omega) hM hE
      rw [decide_eq_false (by omega)] at hstep
      exact ⟨a, (whileFuel_cont hstep).trans r1, r2⟩
  induction hR with
  | done b => intro i fuel e cf hne; exact absurd rfl hne
  | @value seg cs c s x eob b b1 b' rest hs h1 h15 hx hv hseg hcs ih =>
    intro i fuel e cf _ hS hi hlen hfuel hM hE
    obtain ⟨hS1, hS2⟩ := hS.append
    obtain ⟨hCc, hS3⟩ := hS2.cons
    rw [List.length_append, List.length_cons] at hlen hfuel
    have hM1 := hM.skip seg i hS1 hseg (by omega)
    have hM2 := hM1.step (by omega) (by omega) h63
    have hcell := (List.getElem?_eq_some_iff.1 (hM1.todo (i + seg.length) le_rfl (by omega))).1
    have q1 : (16 * seg.length + s) / 16 = seg.length := by omega
    have q2 : (16 * seg.length + s) % 16 = s := by omega
    have hb : |extend x s * 2 ^ q.sl| ≤ 32767 := by
      rw [hv]
      have a1 := coarse_abs q.sl c
      have a2 := hC (i + seg.length)
      rw [hCc] at a2
      omega
    obtain ⟨e', g1, g2⟩ := firstStep_run (q := q) (off := off) (a := ⟨e, i, cf, 0, true⟩) hm hm' ht hf hE hs (by omega) (by rw [q2]; exact hx) (by rw [q1]; show i + seg.length < 64; omega)
      (by rw [q1]; exact hcell) (by rw [q2]; exact hb)
    rw [q1, q2, hv] at g1
    rw [hCc] at hM2
    exact onward hcs ih _ (i + seg.length + 1) fuel e' _ hS3 (by omega) (by omega) (by omega) hM2 g2 g1
  | @zeros seg cs eob b b' rest hs hn hseg hcs ih =>
    intro i fuel e cf _ hS hi hlen hfuel hM hE
    obtain ⟨hS1, hS2⟩ := hS.append
    rw [List.length_append] at hlen hfuel
    have hM1 := hM.skip seg i hS1 hseg (by omega)
    obtain ⟨e', g1, g2⟩ := firstStep_zero (q := q) (off := off) (a := ⟨e, i, cf, 0, true⟩) hm hm' ht hf hE hs (by decide)
    rw [if_neg (by decide)] at g1
    rw [hn] at hS2 hM1
    exact onward hcs ih _ (i + 16) fuel e' cf hS2 (by omega) (by omega) (by omega) hM1 g2 g1
  | @ended cs r x b b' rest hr hs hx hne hcs =>
    intro i fuel e cf _ hS hi hlen hfuel hM hE
    have hpos : 0 < cs.length := List.length_pos_iff.2 hne
    have hM1 := hM.skip cs i hS hcs (by omega)
    rw [hlen] at hM1
    obtain ⟨e', g1, g2⟩ := firstStep_zero (q := q) (off := off) (a := ⟨e, i, cf, 0, true⟩) hm hm' ht hf hE hs (by omega)
    have q1 : 16 * r / 16 = r := by omega
    rw [q1, if_pos hr] at g1
    obtain ⟨e2, b1, b2⟩ := eobBits_ok hm hm' g2 hr hx
    rw [b1, ok_bind] at g1
    obtain ⟨f, rfl⟩ : ∃ f, fuel = f + 1 := ⟨fuel - 1, by omega⟩
    exact ⟨_, whileFuel_stop g1, rfl, rfl, b2, hM1⟩

end FlatCV
