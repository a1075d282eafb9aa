/-
The JPEG decoder on arbitrary files: the construction of Huffman tables.
-/
import Verif.Lemmas.JpegSafeBits
import Verif.Lemmas.JpegTables

namespace FlatCV
open Model

/-- How the decoder may fail on a file for which `B` holds or not. -/
def JE (B : Prop) (e : Fault) : Prop := e = .signedOverflow ∨ e = .uninitRead ∨ (e = .exit ∧ B)

/-- What the search for long codes relies on. -/
structure Slow (B : Prop) (h : JHuff) : Prop where
  top : h.maxcode[17]? = some 4294967295
  found : ∀ l, 2 ≤ l → l ≤ 16 → ∀ m m' temp, h.maxcode[l]? = some m → h.maxcode[l - 1]? = some m' → m' ≤ temp → temp < m →
    ∃ (d : Int) (c : Nat), h.delta[l]? = some d ∧ ((temp / 2 ^ (16 - l) : Nat) : Int) + d = c ∧ c < 256 ∧ h.size[c]? = some l ∧ h.code[c]? = some (temp / 2 ^ (16 - l))
  short : B ∨ ∀ m temp, h.maxcode[9]? = some m → temp < m → ∃ f, h.fast[temp / 128]? = some f ∧ f < 255

/-- A table, either the one before any is defined or one that was built. -/
structure HuffS (B : Prop) (h : JHuff) : Prop where
  lf : h.fast.length = 512
  lc : h.code.length = 256
  lv : h.values.length = 256
  ls : h.size.length = 257
  lm : h.maxcode.length = 18
  ld : h.delta.length = 17
  f : ∀ x ∈ h.fast, x ≤ 255
  v : ∀ x ∈ h.values, x ≤ 255
  slow : (∀ x ∈ h.fast, x < 255) ∨ Slow B h

theorem huffS_zero (B : Prop) : HuffS B JHuff.zero where
  lf := List.length_replicate
  lc := List.length_replicate
  lv := List.length_replicate
  ls := List.length_replicate
  lm := List.length_replicate
  ld := List.length_replicate
  f := fun x hx => by rw [List.eq_of_mem_replicate hx]; decide
  v := fun x hx => by rw [List.eq_of_mem_replicate hx]; decide
  slow := Or.inl fun x hx => by rw [List.eq_of_mem_replicate hx]; decide

theorem sizesFrom_sum (n : Nat) (cs : List Nat) : (sizesFrom n cs).length = cs.sum := by
  induction cs generalizing n with
  | nil => rfl
  | cons c cs ih => rw [sizesFrom, List.length_append, List.length_replicate, ih, List.sum_cons]

/-- The list of lengths. -/
structure SizeList (size : List Nat) (K : Nat) : Prop where
  len : size.length = 257
  le : K ≤ 256
  at0 : size[K]? = some 0

theorem huffSizes_out {E : Fault → Prop} {size counts : List Nat} (hs : size.length = 257) (hc : counts.length = 16) (hK : counts.sum ≤ 256) :
    Outc E (huffSizes size counts) fun r => ∃ s, r = some (s, counts.sum) ∧ SizeList s counts.sum := by
  have h1 := sizesFrom_sum 0 counts
  obtain ⟨s, e, sl, _, s2⟩ := huffSizes_ok hs hc (by omega)
  rw [h1] at e s2
  rw [e]
  exact ⟨s, rfl, sl, hK, s2⟩

/-- The words of length `J`. -/
theorem huffRun_out {E : Fault → Prop} {size : List Nat} {K J : Nat} (hS : SizeList size K) (hJ : 1 ≤ J) {g : HuffGen} (hk : g.k ≤ K) (hl : g.codes.length = 256) :
    Outc E (huffRun size J g) fun g' => g.k ≤ g'.k ∧ g'.k ≤ K ∧ g'.code = g.code + (g'.k - g.k) ∧ g'.codes.length = 256 ∧
      (∀ x < g.k, g'.codes[x]? = g.codes[x]?) ∧ (∀ x, g.k ≤ x → x < g'.k → size[x]? = some J ∧ g'.codes[x]? = some ((g.code + (x - g.k)) % 65536)) ∧
      g'.maxcode = g.maxcode ∧ g'.delta = g.delta ∧ (size[g.k]? = some J → g.k < g'.k) := by
  unfold huffRun
  refine Outc.whileF (fun n (g' : HuffGen) => 258 ≤ n + g'.k ∧ g.k ≤ g'.k ∧ g'.k ≤ K ∧ g'.code = g.code + (g'.k - g.k) ∧ g'.codes.length = 256 ∧
      (∀ x < g.k, g'.codes[x]? = g.codes[x]?) ∧ (∀ x, g.k ≤ x → x < g'.k → size[x]? = some J ∧ g'.codes[x]? = some ((g.code + (x - g.k)) % 65536)) ∧
      g'.maxcode = g.maxcode ∧ g'.delta = g.delta) (fun s h => ?_) (fun n g' h => ?_) 258 g
    ⟨by omega, le_rfl, hk, by omega, hl, fun x _ => rfl, fun x h1 h2 => by omega, rfl, rfl⟩
  · have := hS.le
    omega
  · obtain ⟨h0, h1, h2, h3, h4, h5, h6, h7, h8⟩ := h
    have hKle := hS.le
    refine Outc.bind (js_rdIn (by rw [hS.len]; omega)) fun s hs => ?_
    by_cases hsJ : s = J
    · rw [if_pos hsJ]
      have hlt : g'.k < K := by
        rcases Nat.lt_or_ge g'.k K with h | h
        · exact h
        · have : g'.k = K := by omega
          rw [this, hS.at0] at hs
          injection hs with hs
          omega
      refine Outc.bind (js_wrIn (by omega)) fun r hr => ?_
      refine Outc.pure ?_
      simp only [Bool.false_eq_true, if_false]
      subst hr
      refine ⟨by omega, by omega, by omega, by omega, by rw [List.length_set]; exact h4, ?_, ?_, h7, h8⟩
      · intro x hx
        rw [List.getElem?_set_ne (by omega)]
        exact h5 x hx
      · intro x hx hx'
        by_cases hxe : x = g'.k
        · subst hxe
          refine ⟨by rw [hs, hsJ], ?_⟩
          rw [List.getElem?_set_self (by omega), h3]
        · rw [List.getElem?_set_ne (by omega)]
          exact h6 x hx (by omega)
    · rw [if_neg hsJ]
      refine Outc.pure ?_
      simp only [if_true]
      refine ⟨h1, h2, h3, h4, h5, h6, h7, h8, fun hz => ?_⟩
      rcases Nat.lt_or_ge g.k g'.k with h | h
      · exact h
      · have : g.k = g'.k := by omega
        rw [this, hs] at hz
        injection hz with hz
        exact absurd hz hsJ

/-- After the lengths up to `i`. -/
structure GenS (size : List Nat) (K i : Nat) (g : HuffGen) : Prop where
  lc : g.codes.length = 256
  lm : g.maxcode.length = 18
  ld : g.delta.length = 17
  kK : g.k ≤ K
  small : g.ok = true → g.code ≤ 2 ^ (i + 1)
  zero : g.ok = true → i = 0 → g.code = 0
  words : g.ok = true → ∀ x < g.k, ∃ s w, size[x]? = some s ∧ 1 ≤ s ∧ s ≤ i ∧ g.codes[x]? = some w ∧ w < 2 ^ s
  mx : g.ok = true → 1 ≤ i → g.maxcode[i]? = some (g.code * 2 ^ (16 - i) / 2)
  cov : g.ok = true → ∀ l, 1 ≤ l → l ≤ i → ∀ m, g.maxcode[l]? = some m → ∀ temp < m,
    ∃ x < g.k, ∃ s, size[x]? = some s ∧ s ≤ l ∧ g.codes[x]? = some (temp / 2 ^ (16 - s))
  found : g.ok = true → ∀ l, 2 ≤ l → l ≤ i → ∀ m m' temp, g.maxcode[l]? = some m → g.maxcode[l - 1]? = some m' → m' ≤ temp → temp < m →
    ∃ (d : Int) (c : Nat), g.delta[l]? = some d ∧ ((temp / 2 ^ (16 - l) : Nat) : Int) + d = c ∧ c < g.k ∧ size[c]? = some l ∧ g.codes[c]? = some (temp / 2 ^ (16 - l))

/-- One length: the words, whether or not there are any. -/
theorem huffLen_out {E : Fault → Prop} {size : List Nat} {K J : Nat} (hS : SizeList size K) (hJ : 1 ≤ J) {g : HuffGen} (hk : g.k ≤ K) (hl : g.codes.length = 256)
    (hok : g.ok = true) (hc : g.code ≤ 2 ^ J) :
    Outc E (huffLen size J g) fun g' => g.k ≤ g'.k ∧ g'.k ≤ K ∧ g'.codes.length = 256 ∧ g'.maxcode = g.maxcode ∧ g'.delta = g.delta ∧
      (g'.ok = true → g'.code ≤ 2 ^ J ∧ g'.code = g.code + (g'.k - g.k) ∧ (∀ x < g.k, g'.codes[x]? = g.codes[x]?) ∧
        (∀ x, g.k ≤ x → x < g'.k → size[x]? = some J ∧ g'.codes[x]? = some ((g.code + (x - g.k)) % 65536))) := by
  unfold huffLen
  have hKle := hS.le
  refine Outc.bind (js_rdIn (by rw [hS.len]; omega)) fun s hs => ?_
  by_cases hsJ : s = J
  · rw [if_pos hsJ]
    refine Outc.bind (huffRun_out hS hJ hk hl) fun g' h => ?_
    obtain ⟨h1, h2, h3, h4, h5, h6, h7, h8, h9⟩ := h
    refine Outc.pure ⟨h1, h2, h4, h7, h8, fun hx => ?_⟩
    have h10 := h9 (by rw [hs, hsJ])
    have hx' : g'.code - 1 < 2 ^ J := by simpa using hx
    exact ⟨by show g'.code ≤ _; omega, h3, h5, h6⟩
  · rw [if_neg hsJ]
    exact Outc.pure ⟨le_rfl, hk, hl, rfl, rfl, fun _ => ⟨hc, by omega, fun _ _ => rfl, fun x h1 h2 => by omega⟩⟩

/-- The step from one length to the next. -/
theorem genS_step {size : List Nat} {K i : Nat} (hi : i < 16) {g : HuffGen} (G : GenS size K i g) (hok : g.ok = true) {g' : HuffGen}
    (hk1 : g.k ≤ g'.k) (hk2 : g'.k ≤ K) (hlc : g'.codes.length = 256) (hm : g'.maxcode = g.maxcode) (hd : g'.delta = g.delta.set (i + 1) ((g.k : Int) - g.code))
    (hc : g'.code ≤ 2 ^ (i + 1)) (hce : g'.code = g.code + (g'.k - g.k)) (hold : ∀ x < g.k, g'.codes[x]? = g.codes[x]?)
    (hnew : ∀ x, g.k ≤ x → x < g'.k → size[x]? = some (i + 1) ∧ g'.codes[x]? = some ((g.code + (x - g.k)) % 65536)) :
    GenS size K (i + 1) { g' with maxcode := g'.maxcode.set (i + 1) (g'.code * 2 ^ (16 - (i + 1)) % 4294967296), code := g'.code * 2 % 4294967296 } := by
  have hp : 2 ^ (i + 1) ≤ 2 ^ 16 := Nat.pow_le_pow_right (by decide) (by omega)
  have hpp : 2 ^ (i + 1) * 2 ^ (16 - (i + 1)) = 2 ^ 16 := by rw [← pow_add]; congr 1; omega
  have hmul : g'.code * 2 ^ (16 - (i + 1)) ≤ 2 ^ 16 := by rw [← hpp]; exact Nat.mul_le_mul_right _ hc
  have e1 : g'.code * 2 ^ (16 - (i + 1)) % 4294967296 = g'.code * 2 ^ (16 - (i + 1)) := Nat.mod_eq_of_lt (by omega)
  have e2 : g'.code * 2 % 4294967296 = g'.code * 2 := Nat.mod_eq_of_lt (by omega)
  have hnew' : ∀ x, g.k ≤ x → x < g'.k → size[x]? = some (i + 1) ∧ g'.codes[x]? = some (g.code + (x - g.k)) := by
    intro x h1 h2
    obtain ⟨h3, h4⟩ := hnew x h1 h2
    rw [Nat.mod_eq_of_lt (by omega)] at h4
    exact ⟨h3, h4⟩
  have hq : 0 < 2 ^ (16 - (i + 1)) := Nat.two_pow_pos _
  have hprev : 1 ≤ i → g.maxcode[i]? = some (g.code * 2 ^ (16 - (i + 1))) := by
    intro h1
    rw [G.mx hok h1]
    have : 16 - i = 16 - (i + 1) + 1 := by omega
    rw [this, pow_succ, ← Nat.mul_assoc, Nat.mul_div_cancel _ (by decide)]
  rw [e1, e2]
  have hwnew : ∀ temp, g.code * 2 ^ (16 - (i + 1)) ≤ temp → temp < g'.code * 2 ^ (16 - (i + 1)) →
      ∃ x, g.k ≤ x ∧ x < g'.k ∧ size[x]? = some (i + 1) ∧ g'.codes[x]? = some (temp / 2 ^ (16 - (i + 1))) ∧ x = g.k + (temp / 2 ^ (16 - (i + 1)) - g.code) ∧ g.code ≤ temp / 2 ^ (16 - (i + 1)) := by
    intro temp h1 h2
    have h3 : g.code ≤ temp / 2 ^ (16 - (i + 1)) := (Nat.le_div_iff_mul_le hq).mpr h1
    have h4 : temp / 2 ^ (16 - (i + 1)) < g'.code := (Nat.div_lt_iff_lt_mul hq).mpr h2
    obtain ⟨h5, h6⟩ := hnew' (g.k + (temp / 2 ^ (16 - (i + 1)) - g.code)) (by omega) (by omega)
    refine ⟨_, by omega, by omega, h5, ?_, rfl, h3⟩
    rw [h6]
    congr 1
    omega
  refine ⟨hlc, by rw [List.length_set, hm]; exact G.lm, by show g'.delta.length = 17; rw [hd, List.length_set]; exact G.ld, hk2, fun _ => ?_, fun _ h => by omega, fun _ => ?_, fun _ _ => ?_, fun _ => ?_, fun _ => ?_⟩
  · show g'.code * 2 ≤ 2 ^ (i + 1 + 1)
    rw [pow_succ]
    exact Nat.mul_le_mul_right _ hc
  · intro x hx
    by_cases hxk : x < g.k
    · obtain ⟨s, w, h1, h2, h3, h4, h5⟩ := G.words hok x hxk
      exact ⟨s, w, h1, h2, by omega, by show g'.codes[x]? = _; rw [hold x hxk]; exact h4, h5⟩
    · have hx' : x < g'.k := hx
      obtain ⟨h1, h2⟩ := hnew' x (by omega) hx'
      exact ⟨_, _, h1, by omega, le_rfl, h2, by omega⟩
  · show (g'.maxcode.set (i + 1) _)[i + 1]? = _
    rw [List.getElem?_set_self (by rw [hm, G.lm]; omega)]
    congr 1
    rw [Nat.mul_right_comm, Nat.mul_div_cancel _ (by decide)]
  · intro l hl1 hl2 m hmm temp ht
    by_cases hle : l = i + 1
    · subst hle
      have hmm' : (g'.maxcode.set (i + 1) (g'.code * 2 ^ (16 - (i + 1))))[i + 1]? = some m := hmm
      rw [List.getElem?_set_self (by rw [hm, G.lm]; omega)] at hmm'
      injection hmm' with hmm'
      rcases Nat.lt_or_ge temp (g.code * 2 ^ (16 - (i + 1))) with h | h
      · rcases Nat.eq_zero_or_pos i with h0 | h0
        · rw [G.zero hok h0, Nat.zero_mul] at h
          exact absurd h (by omega)
        · obtain ⟨x, hx, s, h1, h2, h3⟩ := G.cov hok i h0 le_rfl _ (hprev h0) temp h
          exact ⟨x, by show x < g'.k; omega, s, h1, by omega, by show g'.codes[x]? = _; rw [hold x hx]; exact h3⟩
      · obtain ⟨x, h1, h2, h3, h4, _⟩ := hwnew temp h (by omega)
        exact ⟨x, h2, i + 1, h3, le_rfl, h4⟩
    · have hmm' : (g'.maxcode.set (i + 1) (g'.code * 2 ^ (16 - (i + 1))))[l]? = some m := hmm
      rw [List.getElem?_set_ne (by omega), hm] at hmm'
      obtain ⟨x, hx, s, h1, h2, h3⟩ := G.cov hok l hl1 (by omega) m hmm' temp ht
      exact ⟨x, by show x < g'.k; omega, s, h1, h2, by show g'.codes[x]? = _; rw [hold x hx]; exact h3⟩
  · intro l hl1 hl2 m m' temp hmm hmm' ht1 ht2
    have a1 : (g'.maxcode.set (i + 1) (g'.code * 2 ^ (16 - (i + 1))))[l]? = some m := hmm
    have a2 : (g'.maxcode.set (i + 1) (g'.code * 2 ^ (16 - (i + 1))))[l - 1]? = some m' := hmm'
    by_cases hle : l = i + 1
    · subst hle
      rw [List.getElem?_set_self (by rw [hm, G.lm]; omega)] at a1
      rw [List.getElem?_set_ne (by omega), hm, Nat.add_sub_cancel, hprev (by omega)] at a2
      injection a1 with a1
      injection a2 with a2
      obtain ⟨x, h1, h2, h3, h4, h5, h6⟩ := hwnew temp (by omega) (by omega)
      refine ⟨(g.k : Int) - g.code, x, ?_, ?_, h2, h3, h4⟩
      · show g'.delta[i + 1]? = _
        rw [hd, List.getElem?_set_self (by rw [G.ld]; omega)]
      · generalize temp / 2 ^ (16 - (i + 1)) = y at h5 h6 ⊢
        omega
    · rw [List.getElem?_set_ne (by omega), hm] at a1 a2
      obtain ⟨d, c, h1, h2, h3, h4, h5⟩ := G.found hok l hl1 (by omega) m m' temp a1 a2 ht1 ht2
      refine ⟨d, c, ?_, h2, by show c < g'.k; omega, h4, ?_⟩
      · show g'.delta[l]? = _
        rw [hd, List.getElem?_set_ne (by omega)]
        exact h1
      · show g'.codes[c]? = _
        rw [hold c h3]
        exact h5

theorem huffGen_out {E : Fault → Prop} {B : Prop} {h : JHuff} {size : List Nat} {K : Nat} (hS : SizeList size K) (H : HuffS B h) :
    Outc E (huffGen h size) fun g => g.ok = true → g.codes.length = 256 ∧ g.delta.length = 17 ∧ g.maxcode.length = 18 ∧ g.k ≤ K ∧ g.maxcode[17]? = some 4294967295 ∧
      (∀ x < g.k, ∃ s w, size[x]? = some s ∧ 1 ≤ s ∧ s ≤ 16 ∧ g.codes[x]? = some w ∧ w < 2 ^ s) ∧
      (∀ m, g.maxcode[9]? = some m → ∀ temp < m, ∃ x < g.k, ∃ s, size[x]? = some s ∧ s ≤ 9 ∧ g.codes[x]? = some (temp / 2 ^ (16 - s))) ∧
      (∀ l, 2 ≤ l → l ≤ 16 → ∀ m m' temp, g.maxcode[l]? = some m → g.maxcode[l - 1]? = some m' → m' ≤ temp → temp < m →
        ∃ (d : Int) (c : Nat), g.delta[l]? = some d ∧ ((temp / 2 ^ (16 - l) : Nat) : Int) + d = c ∧ c < g.k ∧ size[c]? = some l ∧ g.codes[c]? = some (temp / 2 ^ (16 - l))) := by
  unfold huffGen
  refine Outc.bind (P := GenS size K 16) (Outc.forN (GenS size K) ?_ ?_) ?_
  · refine ⟨H.lc, H.lm, H.ld, Nat.zero_le _, fun _ => Nat.zero_le _, fun _ _ => rfl, fun _ x hx => absurd hx (Nat.not_lt_zero x), fun _ h => by omega, fun _ l h1 h2 => by omega, fun _ l h1 h2 => by omega⟩
  · intro i hi g G
    by_cases hok : g.ok = true
    · rw [if_pos hok]
      refine Outc.bind (js_wrIn (by rw [G.ld]; omega)) fun dl hdl => ?_
      subst hdl
      have hsm := G.small hok
      refine Outc.bind (huffLen_out (g := { g with delta := g.delta.set (i + 1) ((g.k : Int) - g.code) }) hS (by omega) G.kK G.lc hok hsm) fun g' h' => ?_
      obtain ⟨h1, h2, h3, h4, h5, h6⟩ := h'
      by_cases hok' : g'.ok = true
      · rw [if_pos hok']
        refine Outc.bind (js_wrIn (by rw [h4]; show i + 1 < g.maxcode.length; rw [G.lm]; omega)) fun mc hmc => ?_
        subst hmc
        obtain ⟨k1, k2, k3, k4⟩ := h6 hok'
        exact Outc.pure (genS_step hi G hok h1 h2 h3 h4 h5 k1 k2 k3 k4)
      · rw [if_neg hok']
        refine Outc.pure ⟨h3, by rw [h4]; exact G.lm, by rw [h5, List.length_set]; exact G.ld, h2, ?_, ?_, ?_, ?_, ?_, ?_⟩
        all_goals exact fun h => absurd h hok'
    · rw [if_neg hok]
      refine Outc.pure ⟨G.lc, G.lm, G.ld, G.kK, ?_, ?_, ?_, ?_, ?_, ?_⟩
      all_goals exact fun h => absurd h hok
  · intro g G
    by_cases hok : g.ok = true
    · rw [if_pos hok]
      refine Outc.bind (js_wrIn (by rw [G.lm]; omega)) fun mc hmc => ?_
      subst hmc
      refine Outc.pure fun _ => ⟨G.lc, G.ld, by rw [List.length_set]; exact G.lm, G.kK, List.getElem?_set_self (by rw [G.lm]; omega), G.words hok, ?_, ?_⟩
      · intro m hm temp ht
        have hm' : (g.maxcode.set 17 4294967295)[9]? = some m := hm
        rw [List.getElem?_set_ne (by decide)] at hm'
        exact G.cov hok 9 (by decide) (by decide) m hm' temp ht
      · intro l h1 h2 m m' temp a1 a2 a3 a4
        have a1' : (g.maxcode.set 17 4294967295)[l]? = some m := a1
        have a2' : (g.maxcode.set 17 4294967295)[l - 1]? = some m' := a2
        rw [List.getElem?_set_ne (by omega)] at a1' a2'
        exact G.found hok l h1 h2 m m' temp a1' a2' a3 a4
    · rw [if_neg hok]
      exact Outc.pure fun h => absurd h hok

theorem huffFast_out {E : Fault → Prop} {size codes : List Nat} {k : Nat} (hk : k ≤ 256)
    (hw : ∀ x < k, ∃ s w, size[x]? = some s ∧ 1 ≤ s ∧ s ≤ 16 ∧ codes[x]? = some w ∧ w < 2 ^ s) :
    Outc E (huffFast size codes k) fun fast => fast.length = 512 ∧ (∀ f ∈ fast, f ≤ 255) ∧
      (k ≤ 255 → ∀ x < k, ∀ s w, size[x]? = some s → s ≤ 9 → codes[x]? = some w → ∀ y < 2 ^ (9 - s), ∃ f, fast[w * 2 ^ (9 - s) + y]? = some f ∧ f < 255) := by
  unfold huffFast
  refine (Outc.forN (fun i (fast : List Nat) => fast.length = 512 ∧ (∀ f ∈ fast, f ≤ 255) ∧
      (k ≤ 255 → ∀ x < i, ∀ s w, size[x]? = some s → s ≤ 9 → codes[x]? = some w → ∀ y < 2 ^ (9 - s), ∃ f, fast[w * 2 ^ (9 - s) + y]? = some f ∧ f < 255))
    ⟨List.length_replicate, fun f hf => by rw [List.eq_of_mem_replicate hf], fun _ x hx => absurd hx (Nat.not_lt_zero x)⟩ ?_).mono fun r hr => hr
  intro i hi fast hf
  obtain ⟨f1, f2, f3⟩ := hf
  obtain ⟨s, w, e1, e2, e3, e4, e5⟩ := hw i hi
  have r1 : rdIn size i = .ok s := by unfold rdIn; rw [e1]
  have r2 : rdIn codes i = .ok w := by unfold rdIn; rw [e4]
  rw [r1, ok_bind]
  by_cases hs : s ≤ 9
  · rw [if_pos hs, r2, ok_bind]
    have hpp : 2 ^ s * 2 ^ (9 - s) = 512 := by
      rw [← pow_add]
      have : s + (9 - s) = 9 := by omega
      rw [this]
      norm_num
    have hlt : w * 2 ^ (9 - s) + 2 ^ (9 - s) ≤ 512 := by
      rw [← hpp, ← Nat.succ_mul]
      exact Nat.mul_le_mul_right _ e5
    refine (Outc.forN (fun n (fast' : List Nat) => fast'.length = 512 ∧ (∀ f ∈ fast', f ≤ 255) ∧
      (k ≤ 255 → (∀ (p f : Nat), fast[p]? = some f → f < 255 → ∃ f', fast'[p]? = some f' ∧ f' < 255) ∧
        ∀ y < n, ∃ f', fast'[w * 2 ^ (9 - s) + y]? = some f' ∧ f' < 255))
      ⟨f1, f2, fun _ => ⟨fun p f h1 h2 => ⟨f, h1, h2⟩, fun y hy => absurd hy (Nat.not_lt_zero y)⟩⟩ ?_).mono ?_
    · intro y hy fast' h'
      obtain ⟨g1, g2, g3⟩ := h'
      refine (js_wrIn (by omega)).mono fun r hr => ?_
      subst hr
      refine ⟨by rw [List.length_set]; exact g1, fun f hf => ?_, fun hk' => ?_⟩
      · rcases List.mem_or_eq_of_mem_set hf with h | h
        · exact g2 f h
        · omega
      · obtain ⟨g4, g5⟩ := g3 hk'
        have hput : ∀ (p f' : Nat), fast'[p]? = some f' → f' < 255 → ∃ f'', (fast'.set (w * 2 ^ (9 - s) + y) (i % 256))[p]? = some f'' ∧ f'' < 255 := by
          intro p f' h1 h2
          by_cases hp : w * 2 ^ (9 - s) + y = p
          · subst hp
            exact ⟨_, List.getElem?_set_self (by omega), by omega⟩
          · exact ⟨f', by rw [List.getElem?_set_ne hp]; exact h1, h2⟩
        refine ⟨fun p f h1 h2 => ?_, fun y' hy' => ?_⟩
        · obtain ⟨f', a1, a2⟩ := g4 p f h1 h2
          exact hput p f' a1 a2
        · rcases Nat.lt_or_ge y' y with h | h
          · obtain ⟨f', a1, a2⟩ := g5 y' h
            exact hput _ f' a1 a2
          · have : y' = y := by omega
            subst this
            exact ⟨_, List.getElem?_set_self (by omega), by omega⟩
    · rintro r ⟨g1, g2, g3⟩
      refine ⟨g1, g2, fun hk' x hx s' w' a1 a2 a3 y hy => ?_⟩
      obtain ⟨g4, g5⟩ := g3 hk'
      by_cases hxi : x = i
      · subst hxi
        rw [e1] at a1
        rw [e4] at a3
        injection a1 with a1
        injection a3 with a3
        subst a1
        subst a3
        exact g5 y hy
      · obtain ⟨f, b1, b2⟩ := f3 hk' x (by omega) s' w' a1 a2 a3 y hy
        exact g4 _ f b1 b2
  · rw [if_neg hs]
    refine Outc.pure ⟨f1, f2, fun hk' x hx s' w' a1 a2 a3 y hy => ?_⟩
    by_cases hxi : x = i
    · subst hxi
      rw [e1] at a1
      injection a1 with a1
      omega
    · exact f3 hk' x (by omega) s' w' a1 a2 a3 y hy

/-- Building a table fails or yields a good one. -/
theorem build_out {E : Fault → Prop} {B : Prop} {h : JHuff} {counts : List Nat} (H : HuffS B h) (hc : counts.length = 16) (hK : counts.sum ≤ 256) (hB : counts.sum = 256 → B) :
    Outc E (j_build_huffman h counts) fun r => ∀ h', r = some h' → HuffS B h' := by
  unfold j_build_huffman
  refine Outc.bind (huffSizes_out H.ls hc hK) ?_
  rintro r ⟨size, rfl, S⟩
  refine Outc.bind (huffGen_out S H) fun g hg => ?_
  by_cases hok : g.ok = true
  · rw [if_pos hok]
    obtain ⟨g1, g2, g3, g4, g5, g6, g7, g8⟩ := hg hok
    refine Outc.bind (huffFast_out (by omega) g6) fun fast hf => ?_
    obtain ⟨f1, f2, f3⟩ := hf
    refine Outc.pure fun h' e => ?_
    injection e with e
    subst e
    refine ⟨f1, g1, H.lv, S.len, g3, g2, f2, H.v, Or.inr ⟨g5, ?_, ?_⟩⟩
    · intro l h1 h2 m m' temp a1 a2 a3 a4
      obtain ⟨d, c, b1, b2, b3, b4, b5⟩ := g8 l h1 h2 m m' temp a1 a2 a3 a4
      exact ⟨d, c, b1, b2, by omega, b4, b5⟩
    · by_cases h256 : counts.sum = 256
      · exact Or.inl (hB h256)
      · right
        intro m temp hm ht
        obtain ⟨x, hx, s, b1, b2, b3⟩ := g7 m hm temp ht
        have hpp : 2 ^ (16 - s) = 128 * 2 ^ (9 - s) := by
          have : 16 - s = 7 + (9 - s) := by omega
          rw [this, pow_add]
          norm_num
        have := f3 (by omega) x hx s _ b1 b2 b3 (temp / 128 % 2 ^ (9 - s)) (Nat.mod_lt _ (Nat.two_pow_pos _))
        rw [hpp, ← Nat.div_div_eq_div_mul, Nat.mul_comm, Nat.div_add_mod] at this
        exact this
  · rw [if_neg hok]
    exact Outc.pure fun h' e => by cases e

end FlatCV
