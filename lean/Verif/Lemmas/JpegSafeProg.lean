/-
The JPEG decoder on arbitrary files: progressive files.
-/
import Verif.Lemmas.JpegSafePixels
import Verif.Model.JpegProg

namespace FlatCV
open Model

/-! ### Bits -/

theorem prog_bit_out {E : Fault → Prop} {e : Ent} (h : EntS e) : Outc E (prog_bit e) fun r => EntS r.2 ∧ Onward e.s r.2.s := by
  unfold prog_bit
  refine Outc.bind (need_out h (by decide)) fun g hg => ?_
  split
  · exact hg
  · exact ⟨hg.1.drop (by omega), hg.2⟩

theorem prog_bits_out {E : Fault → Prop} {e : Ent} (h : EntS e) {n : Nat} (hn : n ≤ 24) : Outc E (prog_bits e n) fun r => EntS r.2 ∧ Onward e.s r.2.s := by
  unfold prog_bits
  refine Outc.bind (need_out h hn) fun g hg => ?_
  split
  · exact hg
  · exact ⟨hg.1.drop (by omega), hg.2⟩

theorem eobBits_out {E : Fault → Prop} {e : Ent} (h : EntS e) {n : Nat} (hn : n ≤ 24) : Outc E (eobBits e n) fun r => EntS r.2 ∧ Onward e.s r.2.s := by
  unfold eobBits
  split
  · exact prog_bits_out h hn
  · exact ⟨h, Onward.refl _⟩

/-! ### Blocks -/

theorem zero_block {E : Fault → Prop} {cf : Cells Int} {off n : Nat} (hl : cf.length = n) (m : Nat) (ho : off + m ≤ n) :
    Outc E (forN m cf fun i cf => wr cf (off + i) 0) fun r => r.length = n :=
  (Outc.forN (fun _ (r : Cells Int) => r.length = n) hl fun i hi r hr => js_wrL hr (by omega)).mono fun r hr => hr

theorem prog_dc_out {B : Prop} {q : ScanPar} {e : Ent} {hdc : JHuff} {pred : Int} {cf : Cells Int} {off n : Nat} (hE : EntS e) (H : HuffS B hdc)
    (hp : -2147483648 ≤ pred ∧ pred ≤ 2147483647) (hl : cf.length = n) (ho : off + 64 ≤ n) :
    Outc (JE B) (prog_dc q e hdc pred cf off) fun r => ∀ cf' p e', r = some (cf', p, e') → cf'.length = n ∧ (-2147483648 ≤ p ∧ p ≤ 2147483647) ∧ EntS e' ∧ Onward e.s e'.s := by
  unfold prog_dc
  split
  · exact fun cf' p e' h => by cases h
  refine Outc.bind (need_out hE (by decide)) fun g hg => ?_
  obtain ⟨hg, hR⟩ := hg
  split
  · refine Outc.bind (zero_block hl 64 ho) fun cf hl => ?_
    refine Outc.bind (huff_decode_out hg H) fun r hq => ?_
    obtain ⟨t, e1⟩ := r
    obtain ⟨q1, q2, q3, q4⟩ := hq
    dsimp only at q1 q2 q3 q4 ⊢
    by_cases ht : t < 0 ∨ 15 < t
    · rw [if_pos ht]
      exact fun cf' p e' h => by cases h
    · rw [if_neg ht]
      have he : EntS e1 := by
        rcases q1 with h | h
        · omega
        · exact h
      refine Outc.bind (P := fun r => EntS r.2 ∧ Onward e1.s r.2.s ∧ -32767 ≤ r.1 ∧ r.1 ≤ 32767) ?_ fun r hr => ?_
      · unfold dcDiff
        by_cases h0 : t ≠ 0
        · rw [if_pos h0]
          exact extend_out he (by omega) (by omega)
        · rw [if_neg h0]
          exact ⟨he, Onward.refl _, by show (-32767 : Int) ≤ 0; decide, by show (0 : Int) ≤ 32767; decide⟩
      · obtain ⟨diff, e2⟩ := r
        obtain ⟨x1, x2, x3, x4⟩ := hr
        dsimp only at x1 x2 x3 x4 ⊢
        by_cases hv : addintsValid pred diff = false
        · rw [if_pos hv]
          exact fun cf' p e' h => by cases h
        · rw [if_neg hv]
          have hsum := add_valid hp ⟨by omega, by omega⟩ hv
          refine Outc.bind (js_i32 hsum) fun dc hdc => ?_
          by_cases hm : mul2shortsValid dc (2 ^ q.sl : Nat) = false
          · rw [if_pos hm]
            exact fun cf' p e' h => by cases h
          · rw [if_neg hm]
            refine Outc.bind (js_i32 (mul_valid hm)) fun p hp' => ?_
            refine Outc.bind (js_wrL hl (by omega)) fun cf hl => ?_
            refine Outc.pure fun cf' p e' h => ?_
            injection h with h
            injection h with h1 h
            injection h with h2 h3
            subst h1
            subst h2
            subst h3
            exact ⟨hl, by rw [hdc]; exact hsum, x1, (hR.trans q2).trans x2⟩
  · refine Outc.bind (prog_bit_out hg) fun r hr => ?_
    obtain ⟨b, e1⟩ := r
    dsimp only at hr ⊢
    have fin : ∀ cf : Cells Int, cf.length = n → ∀ cf' p e', some (cf, pred, e1) = some (cf', p, e') → cf'.length = n ∧ (-2147483648 ≤ p ∧ p ≤ 2147483647) ∧ EntS e' ∧ Onward e.s e'.s := by
      intro cf hl cf' p e' h
      injection h with h
      injection h with h1 h
      injection h with h2 h3
      subst h1
      subst h2
      subst h3
      exact ⟨hl, hp, hr.1, hR.trans hr.2⟩
    split
    · refine Outc.bind (js_rd (by omega)) fun v _ => ?_
      refine Outc.bind (js_wrL hl (by omega)) fun cf hl => ?_
      exact fin cf hl
    · exact fin cf hl

theorem pow_sl {q : ScanPar} (h : q.sl ≤ 13) : 2 ^ q.sl ≤ 65535 := le_trans (Nat.pow_le_pow_right (by decide) h) (by decide)

theorem putFirst_out {E : Fault → Prop} {q : ScanPar} (hsl : q.sl ≤ 13) {cf : Cells Int} {off n k : Nat} {v : Int} (hl : cf.length = n) (ho : off + 64 ≤ n) (hk : k < 79) (h1 : -32767 ≤ v) (h2 : v ≤ 32767) :
    Outc E (putFirst q cf off k v) fun r => r.length = n := by
  unfold putFirst
  refine Outc.bind (js_rdIn (by rw [zag_len]; exact hk)) fun z hz => ?_
  have hz' := zag_lt z (js_mem hz)
  refine Outc.bind (js_i32 (js_mul h1 h2 (pow_sl hsl))) fun p hp => ?_
  exact js_wrL hl (by omega)

/-- The loops over coefficients. -/
structure PacOk (n : Nat) (s : Ctx) (a : PacSt) : Prop where
  len : a.cf.length = n
  on : Onward s a.e.s

theorem firstStep_out {B : Prop} {q : ScanPar} (hsl : q.sl ≤ 13) (hse : q.se ≤ 63) {hac : JHuff} {fac : List Int} (H : HuffS B hac) (F : FacS fac) {a : PacSt} {s : Ctx} {off n : Nat} (hj : EntS a.e)
    (hk : a.k ≤ q.se) (ha : PacOk n s a) (ho : off + 64 ≤ n) :
    Outc (JE B) (firstStep q hac fac off a) fun r => PacOk n s r.1 ∧ (r.1.ok = true → EntS r.1.e) ∧ (r.2 = false → EntS r.1.e ∧ a.k < r.1.k ∧ r.1.k ≤ q.se) := by
  unfold firstStep
  have hd := ha.len
  refine Outc.bind (need_out hj (by decide)) fun g hg => ?_
  obtain ⟨hg, hR⟩ := hg
  replace hR := ha.on.trans hR
  refine Outc.bind (js_rdIn (by rw [F.len]; exact Nat.mod_lt _ (by decide))) fun r hr => ?_
  have hrle := F.le r (js_mem hr)
  by_cases h0 : r ≠ 0
  · rw [if_pos h0]
    dsimp only
    by_cases hb : g.bits < (r % 16).toNat
    · rw [if_pos hb]
      exact Outc.pure ⟨⟨hd, hR⟩, fun e => (by cases e), fun e => (by cases e)⟩
    · rw [if_neg hb]
      refine Outc.bind (putFirst_out hsl hd ho (by omega) (by omega) (by omega)) fun dat hdat => ?_
      have hE := hg.drop (s := (r % 16).toNat) (by omega)
      exact Outc.pure ⟨⟨hdat, hR⟩, fun _ => hE, fun e => ⟨hE, by show a.k < a.k + _ + 1; omega, Nat.le_of_not_lt (of_decide_eq_false e)⟩⟩
  · rw [if_neg h0]
    refine Outc.bind (huff_decode_out hg H) fun q' hq => ?_
    obtain ⟨rs, e⟩ := q'
    obtain ⟨q1, q2, q3, q4⟩ := hq
    dsimp only at q1 q2 q3 q4 ⊢
    have hR2 := hR.trans q2
    by_cases hneg : rs < 0
    · rw [if_pos hneg]
      exact Outc.pure ⟨⟨hd, hR2⟩, fun e => (by cases e), fun e => (by cases e)⟩
    · rw [if_neg hneg]
      have he : EntS e := by
        rcases q1 with h | h
        · omega
        · exact h
      by_cases hz : rs % 16 = 0
      · rw [if_pos hz]
        by_cases hf : rs / 16 < 15
        · rw [if_pos hf]
          refine Outc.bind (eobBits_out he (by omega)) fun r hr => ?_
          obtain ⟨b, e'⟩ := r
          exact Outc.pure ⟨⟨hd, hR2.trans hr.2⟩, fun _ => hr.1, fun e => (by cases e)⟩
        · rw [if_neg hf]
          exact Outc.pure ⟨⟨hd, hR2⟩, fun _ => he, fun e => ⟨he, by show a.k < a.k + 16; omega, Nat.le_of_not_lt (of_decide_eq_false e)⟩⟩
      · rw [if_neg hz]
        refine Outc.bind (extend_out he (by omega) (by omega)) fun r hr => ?_
        obtain ⟨v, e'⟩ := r
        obtain ⟨x1, x2, x3, x4⟩ := hr
        dsimp only at x1 x2 x3 x4 ⊢
        refine Outc.bind (putFirst_out hsl hd ho (by omega) x3 x4) fun dat hdat => ?_
        exact Outc.pure ⟨⟨hdat, hR2.trans x2⟩, fun _ => x1, fun e => ⟨x1, by show a.k < a.k + _ + 1; omega, Nat.le_of_not_lt (of_decide_eq_false e)⟩⟩

theorem refineCoef_out {E : Fault → Prop} {q : ScanPar} {e : Ent} (h : EntS e) {cf : Cells Int} {n p : Nat} (hl : cf.length = n) (hp : p < n) (v : Int) :
    Outc E (refineCoef q e cf p v) fun r => EntS r.1 ∧ Onward e.s r.1.s ∧ r.2.length = n := by
  unfold refineCoef
  refine Outc.bind (prog_bit_out h) fun r hr => ?_
  obtain ⟨b, e1⟩ := r
  dsimp only at hr ⊢
  split
  · refine Outc.bind (js_wrL hl hp) fun cf hl => ?_
    exact ⟨hr.1, hr.2, hl⟩
  · exact ⟨hr.1, hr.2, hl⟩

theorem refineRun_out {B : Prop} {q : ScanPar} (hse : q.se ≤ 63) {e : Ent} (h : EntS e) {cf : Cells Int} {off n : Nat} (hl : cf.length = n) (ho : off + 64 ≤ n) :
    Outc (JE B) (refineRun q e cf off) fun r => EntS r.1 ∧ Onward e.s r.1.s ∧ r.2.length = n := by
  unfold refineRun
  refine (Outc.forN (fun _ (r : Ent × Cells Int) => EntS r.1 ∧ Onward e.s r.1.s ∧ r.2.length = n) ⟨h, Onward.refl _, hl⟩ fun i hi r hr => ?_).mono fun r hr => hr
  obtain ⟨h1, h2, h3⟩ := hr
  refine Outc.bind (js_rdIn (by rw [zag_len]; omega)) fun z hz => ?_
  have hz' := zag_lt z (js_mem hz)
  refine Outc.bind (js_rd (by omega)) fun v _ => ?_
  split
  · exact (refineCoef_out h1 h3 (by omega) v).mono fun r hr => ⟨hr.1, h2.trans hr.2.1, hr.2.2⟩
  · exact ⟨h1, h2, h3⟩

theorem refineHead_out {E : Fault → Prop} {q : ScanPar} {rs : Int} (h0 : 0 ≤ rs) (h1 : rs ≤ 255) {e : Ent} (h : EntS e) {eob : Nat} :
    Outc E (refineHead q rs e eob) fun r => ∀ a s b e', r = some (a, s, b, e') → EntS e' ∧ Onward e.s e'.s := by
  have fin : ∀ (a : Nat) (s : Int) (b : Nat) (e1 : Ent), EntS e1 → Onward e.s e1.s → ∀ a' s' b' e', some (a, s, b, e1) = some (a', s', b', e') → EntS e' ∧ Onward e.s e'.s := by
    intro a s b e1 x1 x2 a' s' b' e' h
    injection h with h
    injection h with _ h
    injection h with _ h
    injection h with _ h
    subst h
    exact ⟨x1, x2⟩
  unfold refineHead
  split
  · split
    · refine Outc.bind (eobBits_out h (by omega)) fun r hr => ?_
      obtain ⟨b, e'⟩ := r
      exact fin _ _ _ e' hr.1 hr.2
    · exact fin _ _ _ e h (Onward.refl _)
  · split
    · exact fun a s b e' h => by cases h
    · refine Outc.bind (prog_bit_out h) fun r hr => ?_
      obtain ⟨b, e'⟩ := r
      exact fin _ _ _ e' hr.1 hr.2

theorem refineStep_out {B : Prop} {q : ScanPar} (hse : q.se ≤ 63) {off n : Nat} (ho : off + 64 ≤ n) (s : Int) {a : RefSt} (hE : EntS a.e) (hl : a.cf.length = n) :
    Outc (JE B) (refineStep q off s a) fun r => EntS r.1.e ∧ Onward a.e.s r.1.e.s ∧ r.1.cf.length = n ∧ (r.2 = true → (q.se < a.k ∧ r.1.k = a.k) ∨ r.1.k = a.k + 1) ∧
      (r.2 = false → a.k ≤ q.se ∧ r.1.k = a.k + 1) := by
  unfold refineStep
  split
  · rename_i hk
    exact ⟨hE, Onward.refl _, hl, fun _ => Or.inl ⟨hk, rfl⟩, fun e => (by cases e)⟩
  · rename_i hk
    refine Outc.bind (js_rdIn (by rw [zag_len]; omega)) fun z hz => ?_
    have hz' := zag_lt z (js_mem hz)
    refine Outc.bind (js_rd (by omega)) fun v _ => ?_
    split
    · refine Outc.bind (refineCoef_out hE hl (by omega) v) fun r hr => ?_
      obtain ⟨e', cf'⟩ := r
      exact ⟨hr.1, hr.2.1, hr.2.2, fun e => (by cases e), fun _ => ⟨by omega, rfl⟩⟩
    · split
      · refine Outc.bind (js_wrL hl (by omega)) fun cf hl => ?_
        exact ⟨hE, Onward.refl _, hl, fun _ => Or.inr rfl, fun e => (by cases e)⟩
      · exact ⟨hE, Onward.refl _, hl, fun e => (by cases e), fun _ => ⟨by omega, rfl⟩⟩

theorem refineCode_out {B : Prop} {q : ScanPar} (hse : q.se ≤ 63) {hac : JHuff} (H : HuffS B hac) {a : PacSt} {s : Ctx} {off n : Nat} (hj : EntS a.e)
    (hk : a.k ≤ q.se) (ha : PacOk n s a) (ho : off + 64 ≤ n) :
    Outc (JE B) (refineCode q hac off a) fun r => PacOk n s r.1 ∧ (r.1.ok = true → EntS r.1.e) ∧ (r.2 = false → EntS r.1.e ∧ a.k < r.1.k ∧ r.1.k ≤ q.se) := by
  unfold refineCode
  have hd := ha.len
  refine Outc.bind (huff_decode_out hj H) fun q' hq => ?_
  obtain ⟨rs, e⟩ := q'
  obtain ⟨q1, q2, q3, q4⟩ := hq
  dsimp only at q1 q2 q3 q4 ⊢
  have hR2 := ha.on.trans q2
  by_cases hneg : rs < 0
  · rw [if_pos hneg]
    exact Outc.pure ⟨⟨hd, hR2⟩, fun e => (by cases e), fun e => (by cases e)⟩
  · rw [if_neg hneg]
    have he : EntS e := by
      rcases q1 with h | h
      · omega
      · exact h
    refine Outc.bind (refineHead_out (by omega) (by omega) he) fun r hr => ?_
    cases r with
    | none => exact Outc.pure ⟨⟨hd, hR2⟩, fun e => (by cases e), fun e => (by cases e)⟩
    | some t =>
      obtain ⟨r0, s0, b0, e1⟩ := t
      obtain ⟨x1, x2⟩ := hr r0 s0 b0 e1 rfl
      dsimp only
      refine Outc.bind (P := fun b : RefSt => a.k < b.k ∧ b.cf.length = n ∧ EntS b.e ∧ Onward s b.e.s)
        (Outc.whileF (fun m (b : RefSt) => 65 ≤ m + b.k ∧ b.k ≤ 64 ∧ a.k ≤ b.k ∧ b.cf.length = n ∧ EntS b.e ∧ Onward s b.e.s) (fun b h => by omega) (fun m b h => ?_) 65 _
          ⟨by show 65 ≤ 65 + a.k; omega, by show a.k ≤ 64; omega, le_rfl, hd, x1, hR2.trans x2⟩) fun b hb => ?_
      · obtain ⟨h1, h2, h3, h4, h5, h6⟩ := h
        refine (refineStep_out hse ho s0 h5 h4).mono fun r hr => ?_
        obtain ⟨r1, r2, r3, r4, r5⟩ := hr
        cases hstop : r.2 with
        | true =>
          simp only [if_true]
          have := r4 hstop
          exact ⟨by omega, r3, r1, h6.trans r2⟩
        | false =>
          simp only [Bool.false_eq_true, if_false]
          have := r5 hstop
          exact ⟨by omega, by omega, by omega, r3, r1, h6.trans r2⟩
      · obtain ⟨h1, h2, h3, h4⟩ := hb
        exact Outc.pure ⟨⟨h2, h4⟩, fun _ => h3, fun e => ⟨h3, h1, Nat.le_of_not_lt (of_decide_eq_false e)⟩⟩

theorem pac_loop {B : Prop} {q : ScanPar} (hse : q.se ≤ 63) {n : Nat} {s : Ctx} {f : PacSt → CM (PacSt × Bool)}
    (hf : ∀ a : PacSt, EntS a.e → a.k ≤ q.se → PacOk n s a → Outc (JE B) (f a) fun r => PacOk n s r.1 ∧ (r.1.ok = true → EntS r.1.e) ∧ (r.2 = false → EntS r.1.e ∧ a.k < r.1.k ∧ r.1.k ≤ q.se))
    {a : PacSt} (hE : EntS a.e) (hk1 : 1 ≤ a.k) (hk : a.k ≤ q.se) (ha : PacOk n s a) :
    Outc (JE B) (do
      let a ← whileFuel 64 a f
      Pure.pure (if a.ok then some (a.cf, a.eob, a.e) else none)) fun r => ∀ cf' b e', r = some (cf', b, e') → cf'.length = n ∧ EntS e' ∧ Onward s e'.s := by
  refine Outc.bind (P := fun a : PacSt => PacOk n s a ∧ (a.ok = true → EntS a.e))
    (Outc.whileF (fun m (a : PacSt) => 65 ≤ m + a.k ∧ a.k ≤ q.se ∧ PacOk n s a ∧ EntS a.e) (fun b h => by omega) (fun m a h => ?_) 64 _ ⟨by omega, hk, ha, hE⟩) fun a ha => ?_
  · obtain ⟨h1, h2, h3, h4⟩ := h
    refine (hf a h4 h2 h3).mono fun r hr => ?_
    obtain ⟨r1, r2, r3⟩ := hr
    cases hstop : r.2 with
    | true =>
      simp only [if_true]
      exact ⟨r1, r2⟩
    | false =>
      simp only [Bool.false_eq_true, if_false]
      obtain ⟨s1, s2, s3⟩ := r3 hstop
      exact ⟨by omega, s3, r1, s1⟩
  · refine Outc.pure fun cf' b e' h => ?_
    by_cases hok : a.ok = true
    · rw [if_pos hok] at h
      injection h with h
      injection h with h1 h
      injection h with h2 h3
      subst h1
      subst h3
      exact ⟨ha.1.len, ha.2 hok, ha.1.on⟩
    · rw [if_neg hok] at h
      cases h

theorem prog_ac_out {B : Prop} {q : ScanPar} (hss : q.ss ≤ q.se) (hse : q.se ≤ 63) (hsl : q.sl ≤ 13) {e : Ent} {hac : JHuff} {fac : List Int} {eob : Nat} {cf : Cells Int} {off n : Nat} (hE : EntS e)
    (H : HuffS B hac) (F : FacS fac) (hl : cf.length = n) (ho : off + 64 ≤ n) :
    Outc (JE B) (prog_ac q e hac fac eob cf off) fun r => ∀ cf' b e', r = some (cf', b, e') → cf'.length = n ∧ EntS e' ∧ Onward e.s e'.s := by
  have fin : ∀ (c : Cells Int) (b : Nat) (e1 : Ent), c.length = n → EntS e1 → Onward e.s e1.s → ∀ c' b' e', some (c, b, e1) = some (c', b', e') → c'.length = n ∧ EntS e' ∧ Onward e.s e'.s := by
    intro c b e1 x0 x1 x2 c' b' e' h
    injection h with h
    injection h with h1 h
    injection h with _ h3
    subst h1
    subst h3
    exact ⟨x0, x1, x2⟩
  unfold prog_ac
  split
  · exact fun c b e' h => by cases h
  · rename_i h0
    split
    · split
      · exact fin _ _ e hl hE (Onward.refl _)
      · exact pac_loop (q := q) hse (fun a h1 h2 h3 => firstStep_out hsl hse H F h1 h2 h3 ho) hE (by show 1 ≤ q.ss; omega) hss ⟨hl, Onward.refl _⟩
    · split
      · refine Outc.bind (refineRun_out hse hE hl ho) fun r hr => ?_
        obtain ⟨e1, c1⟩ := r
        exact fin _ _ e1 hr.2.2 hr.1 hr.2.1
      · exact pac_loop (q := q) hse (fun a h1 h2 h3 => refineCode_out hse H h1 h2 h3 ho) hE (by show 1 ≤ q.ss; omega) hss ⟨hl, Onward.refl _⟩

end FlatCV
