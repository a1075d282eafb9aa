/-
The JPEG decoder on arbitrary files: the coefficients of a block and their transform.
-/
import Verif.Lemmas.JpegSafeHuff

namespace FlatCV
open Model

theorem findLen_out {E : Fault → Prop} {mc : List Nat} {temp : Nat} (hl : mc.length = 18) (h17 : mc[17]? = some 4294967295) (ht : temp < 65536) :
    Outc E (findLen mc temp) fun k => 10 ≤ k ∧ k ≤ 17 ∧ (∃ m, mc[k]? = some m ∧ temp < m) ∧ (10 < k → ∃ m, mc[k - 1]? = some m ∧ m ≤ temp) := by
  unfold findLen
  refine Outc.whileF (fun n k => n + k = 20 ∧ 10 ≤ k ∧ k ≤ 17 ∧ (10 < k → ∃ m, mc[k - 1]? = some m ∧ m ≤ temp)) (fun s h => by omega) (fun n k h => ?_) 10 10
    ⟨rfl, le_rfl, by decide, fun h => absurd h (by decide)⟩
  obtain ⟨h1, h2, h3, h4⟩ := h
  refine Outc.bind (js_rdIn (by omega)) fun m hm => ?_
  refine Outc.pure ?_
  by_cases hlt : temp < m
  · rw [if_pos hlt]
    simp only [if_true]
    exact ⟨h2, h3, ⟨m, hm, hlt⟩, h4⟩
  · rw [if_neg hlt]
    simp only [Bool.false_eq_true, if_false]
    have : k ≠ 17 := by
      intro e
      rw [e, h17] at hm
      injection hm with hm
      omega
    exact ⟨by omega, by omega, by omega, fun _ => ⟨m, by rw [Nat.add_sub_cancel]; exact hm, by omega⟩⟩

theorem huff_decode_out {B : Prop} {j : Ent} {h : JHuff} (hj : EntS j) (H : HuffS B h) :
    Outc (JE B) (j_huff_decode j h) fun r => (r.1 = -1 ∨ EntS r.2) ∧ Onward j.s r.2.s ∧ -1 ≤ r.1 ∧ r.1 ≤ 255 := by
  unfold j_huff_decode
  refine Outc.bind (need_out hj (by decide)) fun g hg => ?_
  obtain ⟨hg, hR⟩ := hg
  have h512 : g.buf / 2 ^ 23 % 512 < 512 := Nat.mod_lt _ (by decide)
  refine Outc.bind (js_rdIn (by rw [H.lf]; exact h512)) fun k hk => ?_
  have hk255 := H.f k (js_mem hk)
  have hneg : ∀ e : Ent, Onward j.s e.s → Outc (JE B) (Pure.pure ((-1 : Int), e)) fun r => (r.1 = -1 ∨ EntS r.2) ∧ Onward j.s r.2.s ∧ -1 ≤ r.1 ∧ r.1 ≤ 255 :=
    fun e he => ⟨Or.inl rfl, he, le_rfl, by show (-1 : Int) ≤ 255; decide⟩
  have hval : ∀ (v : Nat) (e : Ent), v ≤ 255 → EntS e → Onward j.s e.s → Outc (JE B) (Pure.pure ((v : Int), e)) fun r => (r.1 = -1 ∨ EntS r.2) ∧ Onward j.s r.2.s ∧ -1 ≤ r.1 ∧ r.1 ≤ 255 :=
    fun v e hv he he' => ⟨Or.inr he, he', by show (-1 : Int) ≤ v; omega, by show (v : Int) ≤ 255; omega⟩
  by_cases hlt : k < 255
  · rw [if_pos hlt]
    refine Outc.bind (js_rdIn (by rw [H.ls]; omega)) fun s hs => ?_
    by_cases hb : g.bits < s
    · rw [if_pos hb]
      exact hneg g hR
    · rw [if_neg hb]
      refine Outc.bind (js_rdIn (by rw [H.lv]; omega)) fun v hv => ?_
      exact hval v _ (H.v v (js_mem hv)) (hg.drop (by omega)) hR
  · rw [if_neg hlt]
    have hkk : k = 255 := by omega
    have hS : Slow B h := by
      rcases H.slow with h1 | h1
      · have := h1 k (js_mem hk)
        omega
      · exact h1
    have ht : g.buf / 2 ^ 16 < 65536 := by have := hg.buf; omega
    refine Outc.bind (findLen_out H.lm hS.top ht) fun l hl => ?_
    obtain ⟨l1, l2, ⟨m, hm, hm'⟩, l3⟩ := hl
    by_cases h17 : l = 17
    · rw [if_pos h17]
      exact hneg _ hR
    · rw [if_neg h17]
      by_cases hb : g.bits < l
      · rw [if_pos hb]
        exact hneg g hR
      · rw [if_neg hb]
        refine Outc.bind (js_rdIn (by rw [H.ld]; omega)) fun d hd => ?_
        have hpp : 2 ^ 16 * 2 ^ (16 - l) = 2 ^ (32 - l) := by rw [← pow_add]; congr 1; omega
        have hdiv : g.buf / 2 ^ (32 - l) = g.buf / 2 ^ 16 / 2 ^ (16 - l) := by rw [← hpp, Nat.div_div_eq_div_mul]
        have hsm : g.buf / 2 ^ (32 - l) < 2 ^ l := by
          rw [Nat.div_lt_iff_lt_mul (Nat.two_pow_pos _), ← pow_add]
          have : l + (32 - l) = 32 := by omega
          rw [this]
          exact hg.buf
        have hmod : g.buf / 2 ^ (32 - l) % 2 ^ l = g.buf / 2 ^ 16 / 2 ^ (16 - l) := by rw [Nat.mod_eq_of_lt hsm, hdiv]
        rw [hmod]
        by_cases hc : ((g.buf / 2 ^ 16 / 2 ^ (16 - l) : Nat) : Int) + d < 0 ∨ 256 ≤ ((g.buf / 2 ^ 16 / 2 ^ (16 - l) : Nat) : Int) + d
        · rw [if_pos hc]
          exact hneg g hR
        · rw [if_neg hc]
          refine Outc.bind (js_rdIn (by rw [H.ls]; omega)) fun s hs => ?_
          refine Outc.bind (js_rdIn (by rw [H.lc]; omega)) fun w hw => ?_
          by_cases ha : s = 0 ∨ g.buf / 2 ^ (32 - s) % 2 ^ s ≠ w
          · rw [if_pos ha]
            refine Or.inr (Or.inr ⟨rfl, ?_⟩)
            rcases hS.short with hB | hB
            · exact hB
            · exfalso
              obtain ⟨m', hm1, hm2⟩ : ∃ m', h.maxcode[l - 1]? = some m' ∧ m' ≤ g.buf / 2 ^ 16 := by
                by_cases h10 : l = 10
                · obtain ⟨m', hm1⟩ : ∃ m', h.maxcode[9]? = some m' := ⟨_, List.getElem?_eq_getElem (by rw [H.lm]; decide)⟩
                  refine ⟨m', by rw [h10]; exact hm1, ?_⟩
                  by_contra hcon
                  obtain ⟨f, hf1, hf2⟩ := hB m' (g.buf / 2 ^ 16) hm1 (Nat.lt_of_not_le hcon)
                  have he : g.buf / 2 ^ 16 / 128 = g.buf / 2 ^ 23 % 512 := by
                    have := hg.buf
                    omega
                  rw [he, hk] at hf1
                  injection hf1 with hf1
                  omega
                · exact l3 (by omega)
              obtain ⟨d', c, f1, f2, f3, f4, f5⟩ := hS.found l (by omega) (by omega) m m' _ hm hm1 hm2 hm'
              rw [hd] at f1
              injection f1 with f1
              subst f1
              rw [f2] at hs hw
              rw [Int.toNat_natCast, f4] at hs
              rw [Int.toNat_natCast, f5] at hw
              injection hs with hs
              injection hw with hw
              subst hs
              rcases ha with h0 | h0
              · omega
              · exact h0 (by rw [hmod]; exact hw)
          · rw [if_neg ha]
            refine Outc.bind (js_rdIn (by rw [H.lv]; omega)) fun v hv => ?_
            exact hval v _ (H.v v (js_mem hv)) (hg.drop (by omega)) hR

/-- The table for short AC codes. -/
structure FacS (fac : List Int) : Prop where
  len : fac.length = 512
  le : ∀ x ∈ fac, -32768 ≤ x ∧ x ≤ 32767

theorem facS_zero : FacS (List.replicate 512 0) := ⟨List.length_replicate, fun x hx => by rw [List.eq_of_mem_replicate hx]; decide⟩

theorem FacS.put {fac : List Int} (h : FacS fac) {i : Nat} {z : Int} (h1 : -32768 ≤ z) (h2 : z ≤ 32767) : FacS (fac.set i z) :=
  ⟨by rw [List.length_set]; exact h.len, fun x hx => by
    rcases List.mem_or_eq_of_mem_set hx with h' | h'
    · exact h.le x h'
    · rw [h']; exact ⟨h1, h2⟩⟩

set_option maxRecDepth 20000 in
theorem build_fast_ac_out {E : Fault → Prop} {B : Prop} {h : JHuff} (H : HuffS B h) : Outc E (j_build_fast_ac h) FacS := by
  unfold j_build_fast_ac
  refine (Outc.forN (fun _ (fac : List Int) => FacS fac) (by exact facS_zero) ?_).mono fun r hr => hr
  intro i hi fac hf
  refine Outc.bind (js_rdIn (by rw [H.lf]; exact hi)) fun k hk => ?_
  by_cases hlt : k < 255
  · rw [if_pos hlt]
    refine Outc.bind (js_rdIn (by rw [H.lv]; omega)) fun rs hrs => ?_
    refine Outc.bind (js_rdIn (by rw [H.ls]; omega)) fun len hlen => ?_
    by_cases hm : rs % 16 ≠ 0 ∧ len + rs % 16 ≤ 9
    · rw [if_pos hm]
      dsimp only
      have hall : ∀ z : Int, Outc E (if -128 ≤ z ∧ z ≤ 127 then wrIn fac i (z * 256 + ((rs / 16 % 16 : Nat) : Int) * 16 + ((len : Int) + ((rs % 16 : Nat) : Int))) else Pure.pure fac) FacS := by
        intro z
        split
        · rename_i hz
          refine (js_wrIn (by rw [hf.len]; exact hi)).mono fun r hr => ?_
          subst hr
          have := hm.2
          refine hf.put ?_ ?_
          all_goals push_cast; omega
        · exact hf
      exact hall _
    · rw [if_neg hm]
      exact hf
  · rw [if_neg hlt]
    exact hf

/-- A quantisation table. -/
structure DqS (dq : List Nat) : Prop where
  len : dq.length = 64
  le : ∀ x ∈ dq, x ≤ 65535

theorem zag_len : jpgZag.length = 79 := by decide

theorem zag_lt : ∀ x ∈ jpgZag, x < 64 := by decide

theorem js_mul {v : Int} {q : Nat} (h1 : -32767 ≤ v) (h2 : v ≤ 32767) (hq : q ≤ 65535) : -2147483648 ≤ v * q ∧ v * q ≤ 2147483647 := by
  have h3 : |v| ≤ 32767 := abs_le.mpr ⟨h1, h2⟩
  have h4 : |v * q| ≤ 32767 * 65535 := by
    rw [abs_mul, Nat.abs_cast]
    exact mul_le_mul h3 (by exact_mod_cast hq) (by positivity) (by decide)
  have := abs_le.mp h4
  omega

theorem putCoef_out {E : Fault → Prop} {data : List Int} {dq : List Nat} {k : Nat} {v : Int} (hd : data.length = 64) (hq : DqS dq) (hk : k < 79) (h1 : -32767 ≤ v) (h2 : v ≤ 32767) :
    Outc E (putCoef data dq k v) fun r => r.length = 64 := by
  unfold putCoef
  refine Outc.bind (js_rdIn (by rw [zag_len]; exact hk)) fun z hz => ?_
  have hz' := zag_lt z (js_mem hz)
  refine Outc.bind (js_rdIn (by rw [hq.len]; exact hz')) fun q hq' => ?_
  refine Outc.bind (js_i32 (js_mul h1 h2 (hq.le q (js_mem hq')))) fun p hp => ?_
  refine (js_wrIn (by omega)).mono fun r hr => ?_
  rw [hr, List.length_set, hd]

theorem acStep_out {B : Prop} {hac : JHuff} {fac : List Int} {dq : List Nat} (H : HuffS B hac) (F : FacS fac) (D : DqS dq) {a : AcSt} (hj : EntS a.j)
    (hk1 : 1 ≤ a.k) (hk : a.k < 64) (hd : a.data.length = 64) :
    Outc (JE B) (acStep hac fac dq a) fun r => Onward a.j.s r.1.j.s ∧ r.1.data.length = 64 ∧ (r.1.ok = true → EntS r.1.j) ∧
      (r.2 = false → EntS r.1.j ∧ a.k < r.1.k ∧ r.1.k < 64) := by
  unfold acStep
  refine Outc.bind (need_out hj (by decide)) fun g hg => ?_
  obtain ⟨hg, hR⟩ := hg
  refine Outc.bind (js_rdIn (by rw [F.len]; exact Nat.mod_lt _ (by decide))) fun r hr => ?_
  have hrle := F.le r (js_mem hr)
  by_cases h0 : r ≠ 0
  · rw [if_pos h0]
    dsimp only
    by_cases hb : g.bits < (r % 16).toNat
    · rw [if_pos hb]
      exact Outc.pure ⟨hR, hd, fun e => (by cases e), fun e => (by cases e)⟩
    · rw [if_neg hb]
      refine Outc.bind (putCoef_out hd D (by omega) (by omega) (by omega)) fun dat hdat => ?_
      have hE := hg.drop (s := (r % 16).toNat) (by omega)
      exact Outc.pure ⟨hR, hdat, fun _ => hE, fun e => ⟨hE, by show a.k < a.k + _ + 1; omega, Nat.lt_of_not_le (of_decide_eq_false e)⟩⟩
  · rw [if_neg h0]
    refine Outc.bind (huff_decode_out hg H) fun q hq => ?_
    obtain ⟨rs, e⟩ := q
    obtain ⟨q1, q2, q3, q4⟩ := hq
    dsimp only at q1 q2 q3 q4 ⊢
    have hR2 := hR.trans q2
    by_cases hneg : rs < 0
    · rw [if_pos hneg]
      exact Outc.pure ⟨hR2, hd, fun e => (by cases e), fun e => (by cases e)⟩
    · rw [if_neg hneg]
      have he : EntS e := by
        rcases q1 with h | h
        · omega
        · exact h
      by_cases hz : rs % 16 = 0
      · rw [if_pos hz]
        by_cases hf : rs ≠ 0xF0
        · rw [if_pos hf]
          exact Outc.pure ⟨hR2, hd, fun _ => he, fun e => (by cases e)⟩
        · rw [if_neg hf]
          exact Outc.pure ⟨hR2, hd, fun _ => he, fun e => ⟨he, by show a.k < a.k + 16; omega, Nat.lt_of_not_le (of_decide_eq_false e)⟩⟩
      · rw [if_neg hz]
        refine Outc.bind (extend_out he (by omega) (by omega)) fun q hq => ?_
        obtain ⟨v, e'⟩ := q
        obtain ⟨x1, x2, x3, x4⟩ := hq
        dsimp only at x1 x2 x3 x4 ⊢
        refine Outc.bind (putCoef_out hd D (by omega) x3 x4) fun dat hdat => ?_
        exact Outc.pure ⟨hR2.trans x2, hdat, fun _ => x1, fun e => ⟨x1, by show a.k < a.k + _ + 1; omega, Nat.lt_of_not_le (of_decide_eq_false e)⟩⟩

theorem add_valid {a b : Int} (ha : -2147483648 ≤ a ∧ a ≤ 2147483647) (hb : -2147483648 ≤ b ∧ b ≤ 2147483647) (h : addintsValid a b ≠ false) :
    -2147483648 ≤ a + b ∧ a + b ≤ 2147483647 := by
  unfold addintsValid at h
  by_cases h1 : 0 ≤ a <;> by_cases h2 : 0 ≤ b
  · simp only [h1, h2, decide_true, ne_eq, not_true_eq_false, if_false] at h
    rw [if_neg (by omega)] at h
    simp at h
    omega
  · omega
  · omega
  · simp only [h1, h2, decide_false, ne_eq, not_true_eq_false, if_false] at h
    rw [if_pos (by omega)] at h
    simp at h
    omega

theorem mul_valid {a : Int} {q : Nat} (h : mul2shortsValid a q ≠ false) : -2147483648 ≤ a * q ∧ a * q ≤ 2147483647 := by
  unfold mul2shortsValid at h
  by_cases h0 : (q : Int) = 0
  · rw [h0, mul_zero]
    decide
  · have hq : 0 < (q : Int) := by omega
    rw [if_neg (by omega)] at h
    by_cases ha : 0 ≤ a
    · rw [if_pos (by simp [ha, hq.le])] at h
      have h1 : a ≤ Int.tdiv 32767 q := by simpa using h
      rw [Int.tdiv_eq_ediv_of_nonneg (by decide)] at h1
      have h2 : a * q ≤ 32767 := le_trans (mul_le_mul_of_nonneg_right h1 hq.le) (Int.ediv_mul_le _ (by omega))
      have h3 : 0 ≤ a * q := mul_nonneg ha hq.le
      omega
    · rw [if_neg (by simp [ha, hq.le]), if_neg (by omega)] at h
      have h1 : Int.tdiv (-32768) q ≤ a := by simpa using h
      rw [Int.neg_tdiv, Int.tdiv_eq_ediv_of_nonneg (by decide)] at h1
      have h2 : (-a) * q ≤ 32768 := le_trans (mul_le_mul_of_nonneg_right (by omega : -a ≤ 32768 / (q : Int)) hq.le) (Int.ediv_mul_le _ (by omega))
      have h3 : 0 ≤ (-a) * q := mul_nonneg (by omega) hq.le
      rw [neg_mul] at h2 h3
      omega

theorem decode_block_out {B : Prop} {j : Ent} {hdc hac : JHuff} {fac : List Int} {pred : Int} {dq : List Nat} (hj : EntS j) (H1 : HuffS B hdc) (H2 : HuffS B hac) (F : FacS fac)
    (D : DqS dq) (hp : -2147483648 ≤ pred ∧ pred ≤ 2147483647) :
    Outc (JE B) (j_decode_block j hdc hac fac pred dq) fun r => ∀ data p e, r = some (data, p, e) → data.length = 64 ∧ (-2147483648 ≤ p ∧ p ≤ 2147483647) ∧ EntS e ∧ Onward j.s e.s := by
  unfold j_decode_block
  refine Outc.bind (need_out hj (by decide)) fun g hg => ?_
  obtain ⟨hg, hR⟩ := hg
  refine Outc.bind (huff_decode_out hg H1) fun q hq => ?_
  obtain ⟨t, e⟩ := q
  obtain ⟨q1, q2, q3, q4⟩ := hq
  dsimp only at q1 q2 q3 q4 ⊢
  have none_ok : ∀ Q : List Int × Int × Ent → Prop, Outc (JE B) (Pure.pure (none : Option (List Int × Int × Ent))) fun r => ∀ data p e, r = some (data, p, e) → Q (data, p, e) :=
    fun Q data p e h => by cases h
  by_cases ht : t < 0 ∨ 15 < t
  · rw [if_pos ht]
    exact fun data p e h => by cases h
  · rw [if_neg ht]
    have he : EntS e := by
      rcases q1 with h | h
      · omega
      · exact h
    refine Outc.bind (P := fun r => EntS r.2 ∧ Onward e.s r.2.s ∧ -32767 ≤ r.1 ∧ r.1 ≤ 32767) ?_ fun q hq => ?_
    · unfold dcDiff
      by_cases h0 : t ≠ 0
      · rw [if_pos h0]
        exact extend_out he (by omega) (by omega)
      · rw [if_neg h0]
        exact ⟨he, Onward.refl _, by show (-32767 : Int) ≤ 0; decide, by show (0 : Int) ≤ 32767; decide⟩
    · obtain ⟨diff, e2⟩ := q
      obtain ⟨x1, x2, x3, x4⟩ := hq
      dsimp only at x1 x2 x3 x4 ⊢
      by_cases hv : addintsValid pred diff = false
      · rw [if_pos hv]
        exact fun data p e h => by cases h
      · rw [if_neg hv]
        have hsum := add_valid hp ⟨by omega, by omega⟩ hv
        refine Outc.bind (js_i32 hsum) fun dc hdc => ?_
        refine Outc.bind (js_rdIn (by rw [D.len]; decide)) fun q hq => ?_
        by_cases hm : mul2shortsValid dc q = false
        · rw [if_pos hm]
          exact fun data p e h => by cases h
        · rw [if_neg hm]
          refine Outc.bind (js_i32 (mul_valid hm)) fun p hp' => ?_
          refine Outc.bind (js_wrIn (by rw [List.length_replicate]; decide)) fun dat hdat => ?_
          have hlen : dat.length = 64 := by rw [hdat, List.length_set, List.length_replicate]
          refine Outc.bind (P := fun a : AcSt => a.data.length = 64 ∧ (a.ok = true → EntS a.j) ∧ Onward e2.s a.j.s)
            (Outc.whileF (fun n (a : AcSt) => 65 ≤ n + a.k ∧ 1 ≤ a.k ∧ a.k < 64 ∧ a.data.length = 64 ∧ EntS a.j ∧ Onward e2.s a.j.s) (fun s h => by omega) (fun n a h => ?_) 64 _
              ⟨by show 65 ≤ 64 + 1; decide, by show 1 ≤ 1; decide, by show 1 < 64; decide, hlen, x1, Onward.refl _⟩) fun a ha => ?_
          · obtain ⟨h1, h2, h3, h4, h5, h6⟩ := h
            refine (acStep_out H2 F D h5 h2 h3 h4).mono fun r hr => ?_
            obtain ⟨r1, r2, r3, r4⟩ := hr
            cases hstop : r.2 with
            | true =>
              simp only [if_true]
              exact ⟨r2, r3, h6.trans r1⟩
            | false =>
              simp only [Bool.false_eq_true, if_false]
              obtain ⟨s1, s2, s3⟩ := r4 hstop
              exact ⟨by omega, by omega, s3, r2, s1, h6.trans r1⟩
          · obtain ⟨a1, a2, a3⟩ := ha
            refine Outc.pure fun data p e h => ?_
            by_cases hok : a.ok = true
            · rw [if_pos hok] at h
              injection h with h
              injection h with ha1 h
              injection h with ha2 ha3
              subst ha1
              subst ha2
              subst ha3
              exact ⟨a1, by rw [hdc]; exact hsum, a2 hok, ((hR.trans q2).trans x2).trans a3⟩
            · rw [if_neg hok] at h
              cases h

/-! ### The inverse transform -/

/-- Reading and writing inside a block. -/
theorem js_rd {B : Prop} {α : Type} {s : Cells α} {i : Nat} (h : i < s.length) : Outc (JE B) (rd s i) fun _ => True := by
  unfold rd
  rw [List.getElem?_eq_getElem h]
  cases s[i] with
  | none => exact Or.inr (Or.inl rfl)
  | some v => trivial

theorem js_wr {E : Fault → Prop} {α : Type} {s : Cells α} {i : Nat} {v : α} (h : i < s.length) : Outc E (wr s i v) fun r => r = s.set i (some v) := by
  unfold wr
  rw [if_pos h]
  exact rfl

theorem js_i32' {B : Prop} (z : Int) : Outc (JE B) (i32 z) fun _ => True := by
  unfold i32
  split
  · trivial
  · exact Or.inl rfl

theorem idct1D_out {B : Prop} (s : Oct Int) : Outc (JE B) (idct1D s) fun _ => True := by
  unfold idct1D
  repeat' refine Outc.bind (js_i32' _) fun _ _ => ?_
  trivial

theorem butterfly_out {B : Prop} (bias : Int) (sh : Nat) (q : Oct Int) : Outc (JE B) (butterfly bias sh q) fun _ => True := by
  unfold butterfly
  repeat' refine Outc.bind (js_i32' _) fun _ _ => ?_
  trivial

theorem take8_out {B : Prop} {rdAt : Nat → CM Int} {n i step : Nat} (h : ∀ k < n, Outc (JE B) (rdAt k) fun _ => True) (hn : i + 7 * step < n) : Outc (JE B) (take8 rdAt i step) fun _ => True := by
  unfold take8
  refine Outc.bind (h _ (by omega)) fun _ _ => ?_
  refine Outc.bind (h _ (by omega)) fun _ _ => ?_
  refine Outc.bind (h _ (by omega)) fun _ _ => ?_
  refine Outc.bind (h _ (by omega)) fun _ _ => ?_
  refine Outc.bind (h _ (by omega)) fun _ _ => ?_
  refine Outc.bind (h _ (by omega)) fun _ _ => ?_
  refine Outc.bind (h _ (by omega)) fun _ _ => ?_
  refine Outc.bind (h _ (by omega)) fun _ _ => ?_
  trivial

theorem js_wrL {E : Fault → Prop} {α : Type} {s : Cells α} {i n : Nat} {v : α} (hs : s.length = n) (h : i < n) : Outc E (wr s i v) fun r => r.length = n :=
  (js_wr (by omega)).mono fun r hr => by rw [hr, List.length_set, hs]

theorem put8_out {E : Fault → Prop} {α : Type} {v : Cells α} {i step n : Nat} {a : Oct α} (hv : v.length = n) (hn : i + 7 * step < n) : Outc E (put8 v i step a) fun r => r.length = n := by
  unfold put8
  refine Outc.bind (js_wrL hv (by omega)) fun v hv => ?_
  refine Outc.bind (js_wrL hv (by omega)) fun v hv => ?_
  refine Outc.bind (js_wrL hv (by omega)) fun v hv => ?_
  refine Outc.bind (js_wrL hv (by omega)) fun v hv => ?_
  refine Outc.bind (js_wrL hv (by omega)) fun v hv => ?_
  refine Outc.bind (js_wrL hv (by omega)) fun v hv => ?_
  refine Outc.bind (js_wrL hv (by omega)) fun v hv => ?_
  exact js_wrL hv (by omega)

theorem idct_block_out {B : Prop} {out : Cells UInt8} {off stride n : Nat} {data : List Int} (ho : out.length = n) (hoff : off + 7 * stride + 7 < n) (hd : data.length = 64) :
    Outc (JE B) (idct_block out off stride data) fun r => r.length = n := by
  unfold idct_block
  refine Outc.bind (P := fun v : Cells Int => v.length = 64) (Outc.forN (fun _ (v : Cells Int) => v.length = 64) List.length_replicate fun i hi v hv => ?_) fun v hv => ?_
  · unfold idctColumn
    refine Outc.bind (take8_out (n := 64) (fun k hk => (js_rdIn (by omega)).mono fun _ _ => trivial) (by omega)) fun s _ => ?_
    split
    · refine Outc.bind (js_i32' _) fun t _ => ?_
      exact put8_out hv (by omega)
    · refine Outc.bind (idct1D_out s) fun q _ => ?_
      refine Outc.bind (butterfly_out _ _ q) fun a _ => ?_
      exact put8_out hv (by omega)
  · refine Outc.forN (fun _ (v : Cells UInt8) => v.length = n) ho fun i hi o ho => ?_
    unfold idctRow
    refine Outc.bind (take8_out (n := 64) (fun k hk => js_rd (by omega)) (by omega)) fun s _ => ?_
    refine Outc.bind (idct1D_out s) fun q _ => ?_
    refine Outc.bind (butterfly_out _ _ q) fun a _ => ?_
    refine put8_out ho ?_
    have : i * stride ≤ 7 * stride := Nat.mul_le_mul_right _ (by omega)
    omega

end FlatCV
